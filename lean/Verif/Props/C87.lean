import Verif.Models.StaticJson
import Verif.Spec.StaticJson
import Verif.Lemmas.Each
import Verif.Lemmas.Idempotent

/-!
# C87: static conversions agree with those of properties
-/

namespace Verif.StaticJson

open Verif.Spec.StaticJson

variable {E : Env}

theorem map_congr {α β : Type} {f g : α → M β} : ∀ {xs : List α}, (∀ x ∈ xs, ∀ w, f x w = g x w) → ∀ w, mapML f xs w = mapML g xs w
  | [], _, _ => rfl
  | x :: xs, h, w => by
    unfold mapML
    show (M.bind _ _) w = (M.bind _ _) w
    unfold M.bind
    rw [h x (by simp) w]
    cases hg : g x w with
    | mk r w1 => cases r with
      | error e => rfl
      | ok y =>
        show (M.bind _ _) w1 = (M.bind _ _) w1
        unfold M.bind
        rw [map_congr (fun z hz => h z (by simp [hz])) w1]

/-- One item: the property needs one more level. -/
theorem item_agrees {p : PropSpec} {v : Val} (h : Plain p v) (nm : PyStr) (n : Nat) (kw : SerKw) (w : World) :
    run E (n + 1) (.serializeP nm p v kw) w = itemToJson (run E n) kw v w := by
  obtain ⟨hs, h⟩ := h
  show serializeBody E (run E n) nm p v kw w = _
  unfold serializeBody
  rw [hs]
  simp only []
  rcases h with ⟨c, ht, hv | rfl⟩ | ⟨ht, hv⟩
  · cases v with
    | obj r => rw [ht]; rfl
    | _ => cases hv
  · rfl
  · have hi : itemToJson (run E n) kw v w = (pure v : M Val) w := by
      cases v <;> first | rfl | cases hv
    rw [hi]
    cases hn : v.isNone with
    | true => cases v <;> first | rfl | cases hn
    | false =>
      simp only [Bool.false_eq_true, if_false]
      cases hty : p.ty <;> rw [hty] at ht <;> first | rfl | cases ht

/-- `List.to_json(value)` is what a List property without serializers whose items are plain
makes of the value, with the same errors and effects; likewise for Tuple and Set. -/
theorem C87_sequence {p item : PropSpec} {k : SeqKind} {mn mx : Option Nat} {co : Bool} (hp : p.ser = none)
    (ht : p.ty = .seq k item mn mx co) {v : Val} (hv : v ≠ .none)
    (hi : ∀ xs, v.iter? = some xs → ∀ x ∈ xs, Plain item x) (nm : PyStr) (n : Nat) (kw : SerKw) (w : World) :
    run E (n + 2) (.serializeP nm p v kw) w = seqToJson (run E n) v kw w := by
  show serializeBody E (run E (n + 1)) nm p v kw w = _
  unfold serializeBody seqToJson
  have hn : v.isNone = false := by cases v <;> first | rfl | exact absurd rfl hv
  rw [hp, ht, hn]
  simp only [Bool.false_eq_true, if_false]
  cases hx : v.iter? with
  | none => rfl
  | some xs =>
    simp only []
    show (M.bind _ _) w = (M.bind _ _) w
    unfold M.bind
    rw [map_congr fun x hxs => item_agrees (hi xs hx x hxs) nm n kw]

/-- A value that cannot be iterated over is refused with TypeError, by the static method as by
the property. -/
theorem C87_no_sequence (rec : Rec) {v : Val} (hv : v.iter? = none) (kw : SerKw) (w : World) :
    ∃ e : PyErr, seqToJson rec v kw w = (.error e, w) ∧ e.kind = .type := by
  unfold seqToJson
  rw [hv]
  exact ⟨_, rfl, rfl⟩

/-- `Dictionary.to_json(value)` likewise, if the keys are written as they are. -/
theorem C87_dictionary {p kp vp : PropSpec} {co : Bool} (hp : p.ser = none) (ht : p.ty = .dict kp vp co)
    {kvs : List (Val × Val)} (hi : ∀ kv ∈ kvs, kp.ser = none ∧ WritesAsIs kp.ty = true ∧ isInstance kv.1 = false ∧ Plain vp kv.2)
    (nm : PyStr) (n : Nat) (kw : SerKw) (w : World) :
    run E (n + 2) (.serializeP nm p (.dict kvs) kw) w = dictToJson (run E n) (.dict kvs) kw w := by
  show serializeBody E (run E (n + 1)) nm p (.dict kvs) kw w = _
  unfold serializeBody dictToJson
  rw [hp, ht]
  simp only [Val.isNone, Bool.false_eq_true]
  show (M.bind _ _) w = (M.bind _ _) w
  unfold M.bind
  rw [map_congr]
  intro kv hkv w1
  obtain ⟨h1, h2, h3, h4⟩ := hi kv hkv
  have hk : run E (n + 1) (.serializeP nm kp kv.1 kw) w1 = (.ok kv.1, w1) := by
    rw [item_agrees ⟨h1, .inr ⟨h2, h3⟩⟩]
    cases hv : kv.1 <;> rw [hv] at h3 <;> first | rfl | cases h3
  show (M.bind _ _) w1 = (M.bind _ _) w1
  unfold M.bind
  rw [hk]
  show (M.bind _ _) w1 = _
  unfold M.bind
  rw [item_agrees h4]

/-- What is no dictionary is refused with AttributeError, by the static method as by the
property. -/
theorem C87_no_dictionary {p kp vp : PropSpec} {co : Bool} (hp : p.ser = none) (ht : p.ty = .dict kp vp co)
    {v : Val} (hv : v ≠ .none) (hd : ∀ kvs, v ≠ .dict kvs) (nm : PyStr) (n : Nat) (kw : SerKw) (w : World) :
    run E (n + 2) (.serializeP nm p v kw) w = dictToJson (run E n) v kw w ∧
    ∃ e : PyErr, dictToJson (run E n) v kw w = (.error e, w) ∧ e.kind = .attr := by
  refine ⟨?_, ?_⟩
  · show serializeBody E (run E (n + 1)) nm p v kw w = _
    unfold serializeBody dictToJson
    have hn : v.isNone = false := by cases v <;> first | rfl | exact absurd rfl hv
    rw [hp, ht, hn]
    simp only [Bool.false_eq_true, if_false]
  · unfold dictToJson
    cases v <;> first | exact ⟨_, rfl, rfl⟩ | exact absurd rfl (hd _)

/-- `Instance.to_json(value)` is what any Instance property without serializer makes of the value. -/
theorem C87_instance {p : PropSpec} {c : ClsId} (hp : p.ser = none) (ht : p.ty = .inst c) {v : Val} (hv : v ≠ .none)
    (nm : PyStr) (n : Nat) (kw : SerKw) (w : World) :
    run E (n + 1) (.serializeP nm p v kw) w = instToJson E (run E n) v kw w := by
  show serializeBody E (run E n) nm p v kw w = _
  unfold serializeBody instToJson
  have hn : v.isNone = false := by cases v <;> first | rfl | exact absurd rfl hv
  rw [hp, ht, hn]
  simp only [Bool.false_eq_true, if_false]
  cases v <;> rfl

/-- `Union.to_json(value)` is what a Union property makes of a value none of its alternatives
accepts. -/
theorem C87_union {p : PropSpec} {ps : List PropSpec} {st : Bool} (hp : p.ser = none) (ht : p.ty = .union ps st)
    {v : Val} (hv : v ≠ .none) (nm : PyStr) (n : Nat) (kw : SerKw) (w : World)
    (hr : ∀ q ∈ ps, ∃ e : PyErr, e.kind.isGeneric = true ∧ run E n (.validate nm q none v) w = (.error e, w)) :
    run E (n + 1) (.serializeP nm p v kw) w = unionToJson (run E n) v kw w := by
  show serializeBody E (run E n) nm p v kw w = _
  unfold serializeBody
  have hn : v.isNone = false := by cases v <;> first | rfl | exact absurd rfl hv
  rw [hp, ht, hn]
  simp only [Bool.false_eq_true, if_false]
  clear ht
  induction ps with
  | nil => cases v <;> rfl
  | cons q qs ih =>
    obtain ⟨e, he, hq⟩ := hr q (by simp)
    unfold unionSerialize
    show (M.bind _ _) w = _
    unfold M.bind M.attempt
    rw [hq]
    simp only [he, if_true]
    exact ih fun q hq => hr q (by simp [hq])

/-- `X.from_json(data)` is what a property whose items are read as they are makes of the data. -/
theorem C87_from {p item : PropSpec} {k : SeqKind} {mn mx : Option Nat} {co : Bool} (hp : p.deser = none)
    (ht : p.ty = .seq k item mn mx co) (hi : item.deser = none) (hit : ReadsAsIs item.ty = true) {v : Val}
    (hv : v ≠ .none) (nm : PyStr) (n : Nat) (kw : DeKw) (w : World) :
    run E (n + 2) (.deserializeP nm p v kw) w = seqFromJson k v w := by
  show deserializeBody E (run E (n + 1)) nm p v kw w = _
  unfold deserializeBody seqFromJson
  have hn : v.isNone = false := by cases v <;> first | rfl | exact absurd rfl hv
  rw [hp, ht, hn]
  simp only [Bool.false_eq_true, if_false]
  cases v.iter? with
  | none => rfl
  | some xs =>
    simp only []
    show (M.bind _ _) w = _
    unfold M.bind
    have : mapML (fun x => run E (n + 1) (.deserializeP nm item x kw)) xs w = (.ok xs, w) := by
      induction xs with
      | nil => rfl
      | cons x xs ih =>
        have hx : run E (n + 1) (.deserializeP nm item x kw) w = (.ok x, w) := by
          show deserializeBody E (run E n) nm item x kw w = _
          unfold deserializeBody
          rw [hi]
          simp only []
          cases hxn : x.isNone with
          | true => cases x <;> first | rfl | cases hxn
          | false =>
            simp only [Bool.false_eq_true, if_false]
            cases hty : item.ty <;> rw [hty] at hit <;> first | rfl | cases hit
        unfold mapML
        show (M.bind _ _) w = _
        unfold M.bind
        rw [hx]
        show (M.bind _ _) w = _
        unfold M.bind
        rw [ih]
        rfl
    rw [this]

/-- Data without instances at the top: `to_json` only changes the kind of the container and
touches nothing, and `from_json` of the same class gives the container back. -/
theorem C87_restores (rec : Rec) (kw : SerKw) (k : SeqKind) {xs : List Val} (hx : ∀ x ∈ xs, isInstance x = false)
    (hd : k = .set → hashableL xs = true ∧ xs.Pairwise (fun a b => pyEq a b = false)) (w : World) :
    ∃ v, mkSeq k xs w = (.ok v, w) ∧ seqToJson rec v kw w = (.ok (.list xs), w) ∧
      seqFromJson k (.list xs) w = (.ok v, w) := by
  have hm : mapML (itemToJson rec kw) xs w = (.ok xs, w) := by
    clear hd
    induction xs with
    | nil => rfl
    | cons x xs ih =>
      have h1 : itemToJson rec kw x w = (.ok x, w) := by
        have := hx x (by simp)
        cases x <;> first | rfl | cases this
      unfold mapML
      show (M.bind _ _) w = _
      unfold M.bind
      rw [h1]
      show (M.bind _ _) w = _
      unfold M.bind
      rw [ih fun y hy => hx y (by simp [hy])]
      rfl
  have hto : ∀ v : Val, v.iter? = some xs → seqToJson rec v kw w = (.ok (.list xs), w) := by
    intro v hv
    unfold seqToJson
    rw [hv]
    show (M.bind _ _) w = _
    unfold M.bind
    rw [hm]
    rfl
  cases k with
  | tup => exact ⟨.tup xs, rfl, hto _ rfl, rfl⟩
  | list => exact ⟨.list xs, rfl, hto _ rfl, rfl⟩
  | set =>
    obtain ⟨h1, h2⟩ := hd rfl
    have h3 : mkSeq .set xs w = (.ok (.set xs), w) := by
      unfold mkSeq
      simp only [h1, if_true, setOfList_same h2]
      rfl
    exact ⟨.set xs, h3, hto _ rfl, h3⟩

/-! ## Where they differ, and examples -/

/-- Static methods look one level deep: instances in a list inside the list stay instances. -/
theorem C87_nested (rec : Rec) (kw : SerKw) (ys : List Val) (w : World) :
    seqToJson rec (.list [.list ys]) kw w = (.ok (.list [.list ys]), w) := rfl

/-- A List property of plain Property items leaves instances as they are; `List.to_json` writes
them. -/
theorem C87_plain_items (nm : PyStr) (n : Nat) (kw : SerKw) (r : Nat) (w : World) :
    run E (n + 2) (.serializeP nm (.mk true none none .undef (.seq .list (.mk true none none .undef .any) none none false))
      (.list [.obj r]) kw) w = (.ok (.list [.obj r]), w) ∧
    ∀ j w', run E n (.hpSerialize r kw) w = (.ok j, w') → seqToJson (run E n) (.list [.obj r]) kw w = (.ok (.list [j]), w') := by
  refine ⟨rfl, fun j w' h => ?_⟩
  show (M.bind (M.bind _ _) _) w = _
  unfold M.bind
  rw [show itemToJson (run E n) kw (.obj r) w = (.ok j, w') from h]
  rfl

/-- The hypotheses of the agreement on a list of two instances and of texts. -/
theorem C87_example (c : ClsId) : (∀ x ∈ [Val.obj 3, .obj 4], Plain (.mk true none none .undef (.inst c)) x) ∧
    ∀ x ∈ [Val.str (s% "a"), .str (s% "b")], Plain (.mk true none none .undef (.string [] .keep none)) x := by
  constructor
  · intro x hx
    simp only [List.mem_cons, List.not_mem_nil, or_false] at hx
    rcases hx with rfl | rfl <;> exact ⟨rfl, .inl ⟨c, rfl, .inl rfl⟩⟩
  · intro x hx
    simp only [List.mem_cons, List.not_mem_nil, or_false] at hx
    rcases hx with rfl | rfl <;> exact ⟨rfl, .inr ⟨rfl, rfl⟩⟩

end Verif.StaticJson
