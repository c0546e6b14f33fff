import Verif.Py.Str

/-!
# URL properties

`URL.validate` (extras/web.py:46-61) on text, with `urllib.parse.urlparse` and
`ParseResult.geturl` of the standard library (Python 3.11) as functions on lists
of characters.  What `urlsplit` checks about the network location (brackets,
NFKC) and the table of schemes with parameters are arguments.  The options of
String (strip, case, regex) keep their defaults: `String.validate` returns the
text (basic.py:1023-1044).
-/

namespace Verif.Url

/-- `ParseResult`. -/
structure Parsed where
  scheme : PyStr
  netloc : PyStr
  path : PyStr
  params : PyStr
  query : PyStr
  fragment : PyStr
  deriving DecidableEq

/-- The parts of the library that are not modelled. -/
structure UrlEnv where
  /-- `urlsplit` accepts the network location -/
  netlocOk : PyStr → Bool
  /-- `scheme in uses_params` -/
  usesParams : PyStr → Bool

/-- Errors: a ValidationError, or a ValueError of `urlsplit`. -/
inductive UrlErr where
  | validation
  | value
  deriving DecidableEq

/-- `_WHATWG_C0_CONTROL_OR_SPACE`. -/
def isControl (c : Char) : Bool := c.toNat ≤ 32

/-- `_UNSAFE_URL_BYTES_TO_REMOVE`. -/
def isUnsafe (c : Char) : Bool := c == '\t' || c == '\r' || c == '\n'

/-- `c.isascii() and c.isalpha()`. -/
def isLetter (c : Char) : Bool := (97 ≤ c.toNat && c.toNat ≤ 122) || (65 ≤ c.toNat && c.toNat ≤ 90)

/-- `scheme_chars`. -/
def isSchemeChar (c : Char) : Bool :=
  isLetter c || (48 ≤ c.toNat && c.toNat ≤ 57) || c == '+' || c == '-' || c == '.'

/-- `str.lower` on the characters of a scheme. -/
def lower (c : Char) : Char := if 65 ≤ c.toNat ∧ c.toNat ≤ 90 then Char.ofNat (c.toNat + 32) else c

/-- The text before the first character that satisfies `p`. -/
def before (p : Char → Bool) (s : PyStr) : PyStr := s.takeWhile fun c => !p c

/-- The text from the first character that satisfies `p`. -/
def from' (p : Char → Bool) (s : PyStr) : PyStr := s.dropWhile fun c => !p c

/-- The scheme and the rest. -/
def splitScheme (s : PyStr) : PyStr × PyStr :=
  let name := before (· == ':') s
  let rest := from' (· == ':') s
  if rest ≠ [] ∧ (name.head?.map isLetter).getD false = true ∧ name.all isSchemeChar = true then
    (name.map lower, rest.tail)
  else ([], s)

/-- `_splitnetloc`. -/
def endsNetloc (c : Char) : Bool := c == '/' || c == '?' || c == '#'

/-- The network location and the rest. -/
def splitNetloc : PyStr → PyStr × PyStr
  | '/' :: '/' :: s => (before endsNetloc s, from' endsNetloc s)
  | s => ([], s)

/-- The text up to the last slash. -/
def dirPart (s : PyStr) : PyStr := (from' (· == '/') s.reverse).reverse

/-- The text after the last slash. -/
def lastPart (s : PyStr) : PyStr := (before (· == '/') s.reverse).reverse

/-- `urlparse(s)`. -/
def urlparse (E : UrlEnv) (s : PyStr) : Except UrlErr Parsed :=
  let s := (s.dropWhile isControl).filter fun c => !isUnsafe c
  let (scheme, s) := splitScheme s
  let (netloc, s) := splitNetloc s
  if E.netlocOk netloc then
    let fragment := (from' (· == '#') s).tail
    let s := before (· == '#') s
    let query := (from' (· == '?') s).tail
    let path := before (· == '?') s
    if E.usesParams scheme then
      .ok ⟨scheme, netloc, dirPart path ++ before (· == ';') (lastPart path), (from' (· == ';') (lastPart path)).tail,
        query, fragment⟩
    else .ok ⟨scheme, netloc, path, [], query, fragment⟩
  else .error .value

/-- `sep + text` if there is text. -/
def withSep (sep : Char) (s : PyStr) : PyStr := if s = [] then [] else sep :: s

/-- `geturl()` for a result with a scheme and a network location. -/
def geturl (r : Parsed) : PyStr :=
  let path := r.path ++ withSep ';' r.params
  let path := if path ≠ [] ∧ path.head? ≠ some '/' then '/' :: path else path
  r.scheme ++ ':' :: '/' :: '/' :: (r.netloc ++ (path ++ (withSep '?' r.query ++ withSep '#' r.fragment)))

/-- Options of the property. -/
structure UrlOpts where
  removeParameters : Bool
  removeFragment : Bool

/-- `URL.validate` of a text (extras/web.py:46-61). -/
def validate (E : UrlEnv) (o : UrlOpts) (s : PyStr) : Except UrlErr PyStr :=
  match urlparse E s with
  | .error e => .error e
  | .ok r =>
    if r.scheme = [] ∨ r.netloc = [] then .error .validation
    else .ok (geturl { r with
      params := if o.removeParameters then [] else r.params
      query := if o.removeParameters then [] else r.query
      fragment := if o.removeFragment then [] else r.fragment })

end Verif.Url
