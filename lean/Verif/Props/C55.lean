import Verif.Spec.Png

/-!
# C55: ImagePNG survives JSON
-/

namespace Verif.Png

theorem symbol_value {n : Nat} (h : n < 64) : symbolValue (symbol n) = some n ∧ symbol n ≠ '=' := by
  have : ∀ m : Fin 64, symbolValue (symbol m.val) = some m.val ∧ symbol m.val ≠ '=' := by decide
  exact this ⟨n, h⟩

theorem ofNat_byte (a : Byte) {n : Nat} (h : n = a.val) : Fin.ofNat 256 n = a := by
  subst h
  exact Fin.ofNat_val_eq_self a

theorem loop_symbol {quad left pads : Nat} {out : List Byte} {n : Nat} {rest : PyStr} (h : n < 64) :
    b64loop quad left pads out (symbol n :: rest) = match quad with
      | 0 => b64loop 1 n 0 out rest
      | 1 => b64loop 2 (n % 16) 0 (Fin.ofNat 256 (left * 4 + n / 16) :: out) rest
      | 2 => b64loop 3 (n % 4) 0 (Fin.ofNat 256 (left * 16 + n / 4) :: out) rest
      | _ => b64loop 0 0 0 (Fin.ofNat 256 (left * 64 + n) :: out) rest := by
  obtain ⟨h1, h2⟩ := symbol_value h
  rw [b64loop, if_neg h2]
  simp only [h1]
  rcases quad with _ | _ | _ | q <;> rfl

theorem loop_encode : ∀ (l : List Byte) (out : List Byte), b64loop 0 0 0 out (b64encode l) = some (out.reverse ++ l)
  | [], out => by simp [b64encode, b64loop]
  | [a], out => by
    have ha := a.isLt
    unfold b64encode
    rw [loop_symbol (by omega)]
    simp only
    rw [loop_symbol (by omega)]
    simp only
    rw [ofNat_byte a (by omega)]
    simp [b64loop]
  | [a, b], out => by
    have ha := a.isLt
    have hb := b.isLt
    unfold b64encode
    rw [loop_symbol (by omega)]
    simp only
    rw [loop_symbol (by omega)]
    simp only
    rw [loop_symbol (by omega)]
    simp only
    rw [ofNat_byte b (by omega), ofNat_byte a (by omega)]
    simp [b64loop]
  | a :: b :: c :: rest, out => by
    have ha := a.isLt
    have hb := b.isLt
    have hc := c.isLt
    unfold b64encode
    rw [loop_symbol (by omega)]
    simp only
    rw [loop_symbol (by omega)]
    simp only
    rw [loop_symbol (by omega)]
    simp only
    rw [loop_symbol (by omega)]
    simp only
    rw [ofNat_byte c (by omega), ofNat_byte b (by omega), ofNat_byte a (by omega), loop_encode rest]
    simp

/-- Base 64 text decodes to the bytes it was made from. -/
theorem decode_encode (l : List Byte) : b64decode (b64encode l) = some l := by
  unfold b64decode
  rw [loop_encode]
  rfl

/-- C55: the JSON text of an image decodes to a stream with exactly its bytes, at
the start; writing leaves the image as it was, at the start. -/
theorem C55_reads_back (s : Stream) (h : s.pos = 0) :
    fromJson (toJson s).1 = .ok s ∧ (toJson s).2 = s := by
  obtain ⟨data, pos⟩ := s
  cases h
  have hp : preamble.isPrefixOf (preamble ++ b64encode data) = true := by
    rw [List.isPrefixOf_iff_prefix]
    exact List.prefix_append _ _
  constructor
  · unfold fromJson toJson
    simp only [Stream.read, List.drop_zero, hp, if_true, List.drop_left, decode_encode]
  · rfl

/-- C55: different images have different texts. -/
theorem C55_injective (s t : Stream) (hs : s.pos = 0) (ht : t.pos = 0) (h : (toJson s).1 = (toJson t).1) : s = t := by
  have h1 := (C55_reads_back s hs).1
  rw [h, (C55_reads_back t ht).1] at h1
  cases h1
  rfl

/-- C55: validation gives a stream at its start with the bytes of the input; a
file is accepted exactly if the eight bytes at its position are the signature, so
that a file at its start is accepted only if it has the signature. -/
theorem C55_validate_file (s : Stream) :
    (∀ t, validate (.file s) = .ok t → t = ⟨s.data, 0⟩) ∧
    ((∃ t, validate (.file s) = .ok t) ↔ signature <+: s.data.drop s.pos) := by
  have key : (s.readN 8).1 = signature ↔ signature <+: s.data.drop s.pos := by
    unfold Stream.readN
    simp only
    rw [List.prefix_iff_eq_take]
    exact eq_comm
  constructor
  · intro t h
    simp only [validate] at h
    split at h
    · cases h
      simp [Stream.rewind, Stream.readN, Stream.read]
    · cases h
  · simp only [validate]
    rw [← key]
    constructor
    · rintro ⟨t, h⟩
      split at h
      · assumption
      · cases h
    · intro h
      rw [if_pos h]
      exact ⟨_, rfl⟩

/-- C55, signature: what validation makes of a file at its start, or of an image
that writes PNG, begins with the signature. -/
theorem C55_signature {i : Input} {t : Stream} (h : validate i = .ok t) (hi : Spec.Genuine i) :
    signature <+: t.data ∧ t.pos = 0 := by
  cases hi with
  | validated hd => cases h; exact ⟨hd, rfl⟩
  | image hb => cases h; exact ⟨hb, rfl⟩
  | file =>
    rename_i d
    have h2 := (C55_validate_file ⟨d, 0⟩).2.1 ⟨t, h⟩
    rw [(C55_validate_file ⟨d, 0⟩).1 t h]
    exact ⟨h2, rfl⟩
  | other => cases h

/-- C55, the whole way: a validated image is written, read and validated again;
the result is the image. -/
theorem C55_round_trip {i : Input} {t : Stream} (h : validate i = .ok t) (hi : Spec.Genuine i) :
    ∃ u, fromJson (toJson t).1 = .ok u ∧ validate (.file u) = .ok t := by
  obtain ⟨hsig, hpos⟩ := C55_signature h hi
  refine ⟨t, (C55_reads_back t hpos).1, ?_⟩
  obtain ⟨u, hu⟩ := (C55_validate_file t).2.2 (by rw [hpos]; exact hsig)
  rw [hu, (C55_validate_file t).1 u hu]
  obtain ⟨d, p⟩ := t
  cases hpos
  rfl

/-! ## Concrete cases -/

/-- A small file with the signature. -/
def demoFile : Stream := ⟨signature ++ [1, 2], 0⟩

/-- The text of a ten byte image, with padding. -/
theorem C55_example : validate (.file demoFile) = .ok demoFile ∧
    (toJson demoFile).1 = s% "data:image/png;base64,iVBORw0KGgoBAg==" ∧
    fromJson (s% "data:image/png;base64,iVBORw0KGgoBAg==") = .ok demoFile ∧
    validate (.file ⟨[1, 2, 3], 0⟩) = .error .validation ∧ fromJson (s% "iVBORw0KGgoBAg==") = .error .value := by
  refine ⟨?_, ?_, ?_, ?_, ?_⟩ <;> with_unfolding_all rfl

/-- Why the position matters: the property's value is an open stream; after a
program has read from it, the next serialization omits what was read, and does
not decode to the image. -/
theorem C55_moved_stream : ∃ s : Stream, validate (.validated s) = .ok s ∧ s.data = demoFile.data ∧
    fromJson (toJson s).1 = .ok ⟨[1, 2], 0⟩ := by
  refine ⟨⟨demoFile.data, 8⟩, rfl, rfl, ?_⟩
  with_unfolding_all rfl

/-- Why the position matters for validation: a file whose position is at a PNG
signature further on is accepted whole, although it does not begin with the
signature; a PNG file that has been read to the end is refused. -/
theorem C55_signature_elsewhere :
    validate (.file ⟨0 :: signature, 1⟩) = .ok ⟨0 :: signature, 0⟩ ∧ ¬ signature <+: (0 :: signature : List Byte) ∧
    validate (.file ⟨signature, 8⟩) = .error .validation := by
  refine ⟨by with_unfolding_all rfl, by decide, by with_unfolding_all rfl⟩

end Verif.Png
