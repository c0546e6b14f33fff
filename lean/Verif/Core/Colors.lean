import Verif.Py.Str

/-!
# Color tables of basic.py
-/

namespace Verif

/-- `COLORS_20` (basic.py:1508-1513). -/
def colors20 : List PyStr :=
  [s% "#1f77b4",
   s% "#aec7e8",
   s% "#ff7f0e",
   s% "#ffbb78",
   s% "#2ca02c",
   s% "#98df8a",
   s% "#d62728",
   s% "#ff9896",
   s% "#9467bd",
   s% "#c5b0d5",
   s% "#8c564b",
   s% "#c49c94",
   s% "#e377c2",
   s% "#f7b6d2",
   s% "#7f7f7f",
   s% "#c7c7c7",
   s% "#bcbd22",
   s% "#dbdb8d",
   s% "#17becf",
   s% "#9edae5"]

/-- `COLORS_NAMED` (basic.py:1515-1567), entry for entry, including the
misspelt name `irebrick` of line 1531. -/
def colorsNamed : List (PyStr × PyStr) :=
  [(s% "aliceblue", s% "F0F8FF"),
   (s% "antiquewhite", s% "FAEBD7"),
   (s% "aqua", s% "00FFFF"),
   (s% "aquamarine", s% "7FFFD4"),
   (s% "azure", s% "F0FFFF"),
   (s% "beige", s% "F5F5DC"),
   (s% "bisque", s% "FFE4C4"),
   (s% "black", s% "000000"),
   (s% "blanchedalmond", s% "FFEBCD"),
   (s% "blue", s% "0000FF"),
   (s% "blueviolet", s% "8A2BE2"),
   (s% "brown", s% "A52A2A"),
   (s% "burlywood", s% "DEB887"),
   (s% "cadetblue", s% "5F9EA0"),
   (s% "chartreuse", s% "7FFF00"),
   (s% "chocolate", s% "D2691E"),
   (s% "coral", s% "FF7F50"),
   (s% "cornflowerblue", s% "6495ED"),
   (s% "cornsilk", s% "FFF8DC"),
   (s% "crimson", s% "DC143C"),
   (s% "cyan", s% "00FFFF"),
   (s% "darkblue", s% "00008B"),
   (s% "darkcyan", s% "008B8B"),
   (s% "darkgoldenrod", s% "B8860B"),
   (s% "darkgray", s% "A9A9A9"),
   (s% "darkgrey", s% "A9A9A9"),
   (s% "darkgreen", s% "006400"),
   (s% "darkkhaki", s% "BDB76B"),
   (s% "darkmagenta", s% "8B008B"),
   (s% "darkolivegreen", s% "556B2F"),
   (s% "darkorange", s% "FF8C00"),
   (s% "darkorchid", s% "9932CC"),
   (s% "darkred", s% "8B0000"),
   (s% "darksalmon", s% "E9967A"),
   (s% "darkseagreen", s% "8FBC8F"),
   (s% "darkslateblue", s% "483D8B"),
   (s% "darkslategray", s% "2F4F4F"),
   (s% "darkslategrey", s% "2F4F4F"),
   (s% "darkturquoise", s% "00CED1"),
   (s% "darkviolet", s% "9400D3"),
   (s% "deeppink", s% "FF1493"),
   (s% "deepskyblue", s% "00BFFF"),
   (s% "dimgray", s% "696969"),
   (s% "dimgrey", s% "696969"),
   (s% "dodgerblue", s% "1E90FF"),
   (s% "irebrick", s% "B22222"),
   (s% "floralwhite", s% "FFFAF0"),
   (s% "forestgreen", s% "228B22"),
   (s% "fuchsia", s% "FF00FF"),
   (s% "gainsboro", s% "DCDCDC"),
   (s% "ghostwhite", s% "F8F8FF"),
   (s% "gold", s% "FFD700"),
   (s% "goldenrod", s% "DAA520"),
   (s% "gray", s% "808080"),
   (s% "grey", s% "808080"),
   (s% "green", s% "008000"),
   (s% "greenyellow", s% "ADFF2F"),
   (s% "honeydew", s% "F0FFF0"),
   (s% "hotpink", s% "FF69B4"),
   (s% "indianred", s% "CD5C5C"),
   (s% "indigo", s% "4B0082"),
   (s% "ivory", s% "FFFFF0"),
   (s% "khaki", s% "F0E68C"),
   (s% "lavender", s% "E6E6FA"),
   (s% "lavenderblush", s% "FFF0F5"),
   (s% "lawngreen", s% "7CFC00"),
   (s% "lemonchiffon", s% "FFFACD"),
   (s% "lightblue", s% "ADD8E6"),
   (s% "lightcoral", s% "F08080"),
   (s% "lightcyan", s% "E0FFFF"),
   (s% "lightgoldenrodyellow", s% "FAFAD2"),
   (s% "lightgray", s% "D3D3D3"),
   (s% "lightgrey", s% "D3D3D3"),
   (s% "lightgreen", s% "90EE90"),
   (s% "lightpink", s% "FFB6C1"),
   (s% "lightsalmon", s% "FFA07A"),
   (s% "lightseagreen", s% "20B2AA"),
   (s% "lightskyblue", s% "87CEFA"),
   (s% "lightslategray", s% "778899"),
   (s% "lightslategrey", s% "778899"),
   (s% "lightsteelblue", s% "B0C4DE"),
   (s% "lightyellow", s% "FFFFE0"),
   (s% "lime", s% "00FF00"),
   (s% "limegreen", s% "32CD32"),
   (s% "linen", s% "FAF0E6"),
   (s% "magenta", s% "FF00FF"),
   (s% "maroon", s% "800000"),
   (s% "mediumaquamarine", s% "66CDAA"),
   (s% "mediumblue", s% "0000CD"),
   (s% "mediumorchid", s% "BA55D3"),
   (s% "mediumpurple", s% "9370DB"),
   (s% "mediumseagreen", s% "3CB371"),
   (s% "mediumslateblue", s% "7B68EE"),
   (s% "mediumspringgreen", s% "00FA9A"),
   (s% "mediumturquoise", s% "48D1CC"),
   (s% "mediumvioletred", s% "C71585"),
   (s% "midnightblue", s% "191970"),
   (s% "mintcream", s% "F5FFFA"),
   (s% "mistyrose", s% "FFE4E1"),
   (s% "moccasin", s% "FFE4B5"),
   (s% "navajowhite", s% "FFDEAD"),
   (s% "navy", s% "000080"),
   (s% "oldlace", s% "FDF5E6"),
   (s% "olive", s% "808000"),
   (s% "olivedrab", s% "6B8E23"),
   (s% "orange", s% "FFA500"),
   (s% "orangered", s% "FF4500"),
   (s% "orchid", s% "DA70D6"),
   (s% "palegoldenrod", s% "EEE8AA"),
   (s% "palegreen", s% "98FB98"),
   (s% "paleturquoise", s% "AFEEEE"),
   (s% "palevioletred", s% "DB7093"),
   (s% "papayawhip", s% "FFEFD5"),
   (s% "peachpuff", s% "FFDAB9"),
   (s% "peru", s% "CD853F"),
   (s% "pink", s% "FFC0CB"),
   (s% "plum", s% "DDA0DD"),
   (s% "powderblue", s% "B0E0E6"),
   (s% "purple", s% "800080"),
   (s% "rebeccapurple", s% "663399"),
   (s% "red", s% "FF0000"),
   (s% "rosybrown", s% "BC8F8F"),
   (s% "royalblue", s% "4169E1"),
   (s% "saddlebrown", s% "8B4513"),
   (s% "salmon", s% "FA8072"),
   (s% "sandybrown", s% "F4A460"),
   (s% "seagreen", s% "2E8B57"),
   (s% "seashell", s% "FFF5EE"),
   (s% "sienna", s% "A0522D"),
   (s% "silver", s% "C0C0C0"),
   (s% "skyblue", s% "87CEEB"),
   (s% "slateblue", s% "6A5ACD"),
   (s% "slategray", s% "708090"),
   (s% "slategrey", s% "708090"),
   (s% "snow", s% "FFFAFA"),
   (s% "springgreen", s% "00FF7F"),
   (s% "steelblue", s% "4682B4"),
   (s% "tan", s% "D2B48C"),
   (s% "teal", s% "008080"),
   (s% "thistle", s% "D8BFD8"),
   (s% "tomato", s% "FF6347"),
   (s% "turquoise", s% "40E0D0"),
   (s% "violet", s% "EE82EE"),
   (s% "wheat", s% "F5DEB3"),
   (s% "white", s% "FFFFFF"),
   (s% "whitesmoke", s% "F5F5F5"),
   (s% "yellow", s% "FFFF00"),
   (s% "yellowgreen", s% "9ACD32"),
   (s% "k", s% "000000"),
   (s% "b", s% "0000FF"),
   (s% "c", s% "00FFFF"),
   (s% "g", s% "00FF00"),
   (s% "m", s% "FF00FF"),
   (s% "r", s% "FF0000"),
   (s% "w", s% "FFFFFF"),
   (s% "y", s% "FFFF00")]

end Verif
