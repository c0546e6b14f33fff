import Verif.Lemmas.Each
import Verif.Models.Demo

/-!
# C30, C32, C33: containers item by item, Unions by alternatives

Everything is stated about the calls of the API a container or Union property
makes on its item properties or alternatives, in the states in which they run.
-/

namespace Verif
open Spec

theorem matches_iff {k : SeqKind} {v : Val} : k.matches v = true ↔ IsKind k v := by
  cases k <;> cases v <;> simp [SeqKind.matches, IsKind]

theorem itemsOf_iff {v : Val} {xs : List Val} :
    ItemsOf v xs ↔ (if v.isContainer then v.items else [v]) = xs := by
  constructor
  · intro h
    cases h with
    | tup => rfl
    | list => rfl
    | set => rfl
    | single _ h =>
      cases v <;> first
        | rfl
        | exact absurd ⟨_, rfl⟩ (h .tup)
        | exact absurd ⟨_, rfl⟩ (h .list)
        | exact absurd ⟨_, rfl⟩ (h .set)
  · rintro rfl
    cases v <;> first
      | exact .tup _
      | exact .list _
      | exact .set _
      | exact .single _ fun k ⟨_, h⟩ => (by cases k <;> cases h)
      | exact .single _ fun k h => by cases k <;> (obtain ⟨_, h⟩ := h; cases h)

/-- One call of `validate` that accepts. -/
def Accepts (E : Env) (n : Nat) (nm : PyStr) (inst : Option Nat) (p : PropSpec)
    (a : Val) (w : World) (b : Val) (w' : World) : Prop :=
  run E n (.validate nm p inst a) w = (.ok b, w')

theorem mkSeq_packed {k : SeqKind} {ys : List Val} {x : Val} {w w' : World}
    (h : mkSeq k ys w = (.ok x, w')) : Packed k ys x ∧ w' = w := by
  unfold mkSeq at h
  split at h
  · cases h; exact ⟨.tup _, rfl⟩
  · cases h; exact ⟨.list _, rfl⟩
  · split at h
    · rename_i hh; cases h
      exact ⟨.set _ _ (distinct_setOfList _) (hashableL_iff.1 hh), rfl⟩
    · cases h

theorem mkSeq_ok {k : SeqKind} {ys : List Val} (hh : k = .set → ∀ y ∈ ys, y.hashable = true)
    (w : World) : ∃ x, mkSeq k ys w = (.ok x, w) ∧ Packed k ys x := by
  unfold mkSeq
  cases k with
  | tup => exact ⟨_, rfl, .tup _⟩
  | list => exact ⟨_, rfl, .list _⟩
  | set =>
    have := hh rfl
    dsimp only
    rw [if_pos (hashableL_iff.2 this)]
    exact ⟨_, rfl, .set _ _ (distinct_setOfList _) this⟩

section
variable {E : Env} {n : Nat} {nm : PyStr} {inst : Option Nat} {p : PropSpec}

/-! ## Tuple, List and Set -/

section
variable {k : SeqKind} {item : PropSpec} {a b : Option Nat} {c : Bool}
  (hp : p.ty = .seq k item a b c) {v : Val} {w : World} {xs : List Val} (hx : ItemsOf v xs)
include hp hx

theorem seq_run : run E (n + 1) (.validate nm p inst v) w =
    ((if !c && !k.matches v then propError E (run E n) nm inst else pure ()) >>= fun _ =>
      (mapML (fun x => M.catchIf ErrKind.isValueError (run E n (.validate nm item inst x))
        (fun _ => propError E (run E n) nm inst)) xs >>= mkSeq k)) w := by
  show validateBody E (run E n) nm p inst v w = _
  unfold validateBody
  rw [hp]
  dsimp only
  unfold seqValidate
  rw [itemsOf_iff.1 hx]
  dsimp only
  split <;> rfl

/-- C30: an accepted container is of the declared kind (any kind, or a single
item, with `coerce`), all its items are accepted, and the result holds the
coerced items in order; for a Set the distinct ones. -/
theorem C30_seq_accepted {x : Val} {w' : World}
    (h : run E (n + 1) (.validate nm p inst v) w = (.ok x, w')) :
    (c = true ∨ IsKind k v) ∧
    ∃ ys, Each (Accepts E n nm inst item) xs w ys w' ∧ Packed k ys x := by
  rw [seq_run hp hx] at h
  obtain ⟨_, w1, h1, h2⟩ := bind_ok_inv h
  have hc : (c = true ∨ IsKind k v) ∧ w1 = w := by
    split at h1
    · exact absurd (congrArg Prod.fst h1) (propError_never_ok E _ nm inst w _)
    · rename_i hn
      cases h1
      refine ⟨?_, rfl⟩
      simp only [Bool.and_eq_true, Bool.not_eq_true', not_and, Bool.not_eq_false] at hn
      cases hcc : c with
      | true => exact .inl rfl
      | false => exact .inr (matches_iff.1 (hn hcc))
  obtain ⟨hc, rfl⟩ := hc
  obtain ⟨ys, w2, h3, h4⟩ := bind_ok_inv h2
  obtain ⟨h5, rfl⟩ := mkSeq_packed h4
  exact ⟨hc, ys, (mapML_iff.1 h3).mono fun _ _ _ _ h => item_ok.1 h, h5⟩

/-- C30: a container of the declared kind (or with `coerce`) all of whose items
are accepted is accepted; for a Set the coerced items have to be hashable. -/
theorem C30_seq_accepts (hc : c = true ∨ IsKind k v) {ys : List Val} {w' : World}
    (he : Each (Accepts E n nm inst item) xs w ys w')
    (hh : k = .set → ∀ y ∈ ys, y.hashable = true) :
    ∃ x, run E (n + 1) (.validate nm p inst v) w = (.ok x, w') ∧ Packed k ys x := by
  obtain ⟨x, h1, h2⟩ := mkSeq_ok hh w'
  refine ⟨x, ?_, h2⟩
  rw [seq_run hp hx]
  have : (!c && !k.matches v) = false := by
    rcases hc with rfl | h
    · rfl
    · rw [matches_iff.2 h]; cases c <;> rfl
  rw [this, if_neg Bool.false_ne_true, bind_ok (pure_apply () w), bind_ok (mapML_iff.2 (he.mono fun _ _ _ _ h => item_ok.2 h))]
  exact h1

/-- C30: a container of another kind is rejected without `coerce`, before any
item is looked at. -/
theorem C30_seq_kind (hc : c = false) (hk : ¬ IsKind k v) (hq : QuietInst E w inst) :
    IsValidationError (run E (n + 1) (.validate nm p inst v) w).1 := by
  rw [seq_run hp hx]
  have : (!c && !k.matches v) = true := by
    rw [hc]
    cases h : k.matches v with
    | true => exact absurd (matches_iff.1 h) hk
    | false => rfl
  rw [this]
  obtain ⟨w1, h1, _⟩ := propError_quiet (α := Unit) E (run E n) nm inst w hq
  rw [if_pos rfl, bind_err h1]
  exact ⟨_, rfl, rfl⟩

/-- C30: the first item that is rejected ends the validation.  A ValueError is
replaced by a ValidationError about the container, other exceptions pass. -/
theorem C30_seq_rejected (hc : c = true ∨ IsKind k v) {pre post ys : List Val} {y : Val}
    (hs : xs = pre ++ y :: post) {w1 w2 : World} {e : PyErr}
    (he : Each (Accepts E n nm inst item) pre w ys w1)
    (hy : run E n (.validate nm item inst y) w1 = (.error e, w2)) (hq : QuietInst E w2 inst) :
    if e.kind.isValueError then IsValidationError (run E (n + 1) (.validate nm p inst v) w).1
    else run E (n + 1) (.validate nm p inst v) w = (.error e, w2) := by
  rw [seq_run hp hx]
  have : (!c && !k.matches v) = false := by
    rcases hc with rfl | h
    · rfl
    · rw [matches_iff.2 h]; cases c <;> rfl
  rw [this, if_neg Bool.false_ne_true, bind_ok (pure_apply () w), hs]
  have he' := he.mono (g := fun x w z w' => M.catchIf ErrKind.isValueError
    (run E n (.validate nm item inst x)) (fun _ => propError E (run E n) nm inst) w = (.ok z, w'))
    fun _ _ _ _ h => item_ok.2 h
  split
  · rename_i hk
    obtain ⟨w3, h3, _⟩ := propError_quiet (α := Val) E (run E n) nm inst w2 hq
    rw [bind_err (mapML_err he' ((catchIf_err hy hk).trans h3))]
    exact ⟨_, rfl, rfl⟩
  · rename_i hk
    rw [bind_err (mapML_err he' (catchIf_pass hy (by simpa using hk)))]

end

/-! ## Dictionary -/

/-- One entry of a dictionary is accepted: key and value are, and the coerced
key is hashable. -/
def AcceptsPair (E : Env) (n : Nat) (nm : PyStr) (inst : Option Nat) (kp vp : PropSpec)
    (a : Val × Val) (w : World) (b : Val × Val) (w' : World) : Prop :=
  ∃ w1, Accepts E n nm inst kp a.1 w b.1 w1 ∧ Accepts E n nm inst vp a.2 w1 b.2 w' ∧
    b.1.hashable = true

/-- The body of the loop over the entries. -/
def dictStep (E : Env) (n : Nat) (nm : PyStr) (inst : Option Nat) (kp vp : PropSpec)
    (d : List (Val × Val)) (kv : Val × Val) : M (List (Val × Val)) := do
  let key ← M.catchIf ErrKind.isValueError (run E n (.validate nm kp inst kv.1))
    (fun _ => propError E (run E n) nm inst)
  let val ← M.catchIf ErrKind.isValueError (run E n (.validate nm vp inst kv.2))
    (fun _ => propError E (run E n) nm inst)
  if key.hashable then pure (dictSet d key val) else raiseK .type

theorem dictStep_ok {kp vp : PropSpec} {d d' : List (Val × Val)} {kv : Val × Val} {w w' : World} :
    dictStep E n nm inst kp vp d kv w = (.ok d', w') ↔
      ∃ b, AcceptsPair E n nm inst kp vp kv w b w' ∧ d' = dictSet d b.1 b.2 := by
  constructor
  · intro h
    obtain ⟨key, w1, h1, h⟩ := bind_ok_inv h
    obtain ⟨val, w2, h2, h⟩ := bind_ok_inv h
    split at h
    · rename_i hh
      cases h
      exact ⟨(key, val), ⟨w1, item_ok.1 h1, item_ok.1 h2, hh⟩, rfl⟩
    · cases h
  · rintro ⟨b, ⟨w1, h1, h2, hh⟩, rfl⟩
    unfold dictStep
    rw [bind_ok (item_ok.2 h1), bind_ok (item_ok.2 h2), if_pos hh]; rfl

theorem foldDict_ok {kp vp : PropSpec} : ∀ {kvs d d' : List (Val × Val)} {w w' : World},
    foldML (dictStep E n nm inst kp vp) d kvs w = (.ok d', w') ↔
      ∃ out, Each (AcceptsPair E n nm inst kp vp) kvs w out w' ∧
        d' = out.foldl (fun d kv => dictSet d kv.1 kv.2) d
  | [], d, d', w, w' => by
      constructor
      · intro h; cases h; exact ⟨[], .nil _, rfl⟩
      · rintro ⟨out, h, rfl⟩; cases h; rfl
  | kv :: kvs, d, d', w, w' => by
      constructor
      · intro h
        obtain ⟨d1, w1, h1, h2⟩ := bind_ok_inv h
        obtain ⟨b, h3, rfl⟩ := dictStep_ok.1 h1
        obtain ⟨out, h4, rfl⟩ := foldDict_ok.1 h2
        exact ⟨b :: out, .cons h3 h4, rfl⟩
      · rintro ⟨out, h, rfl⟩
        cases h with
        | cons h1 h2 =>
          unfold foldML
          rw [bind_ok (dictStep_ok.2 ⟨_, h1, rfl⟩)]
          exact foldDict_ok.2 ⟨_, h2, rfl⟩

section
variable {kp vp : PropSpec} {c : Bool} (hp : p.ty = .dict kp vp c) {w : World}
include hp

theorem dict_run (v : Val) : run E (n + 1) (.validate nm p inst v) w =
    ((match (generalizing := false) (if c then dictCoerce? v else
        match (generalizing := false) v with | .dict kvs => some kvs | _ => none) with
      | some kvs => pure kvs
      | none => propError E (run E n) nm inst) >>= fun items =>
    foldML (dictStep E n nm inst kp vp) [] items >>= fun out => pure (.dict out)) w := by
  show validateBody E (run E n) nm p inst v w = _
  unfold validateBody
  rw [hp]
  rfl

theorem dict_run_dict (kvs : List (Val × Val)) : run E (n + 1) (.validate nm p inst (.dict kvs)) w =
    (foldML (dictStep E n nm inst kp vp) [] kvs >>= fun out => pure (.dict out)) w := by
  rw [dict_run hp]
  cases c <;> rfl

/-- C30 for Dictionary: all keys and values of an accepted dictionary are
accepted, and the result is the dictionary of the coerced entries. -/
theorem C30_dict_accepted {kvs : List (Val × Val)} {x : Val} {w' : World}
    (h : run E (n + 1) (.validate nm p inst (.dict kvs)) w = (.ok x, w')) :
    ∃ out d, Each (AcceptsPair E n nm inst kp vp) kvs w out w' ∧ DictOf out d ∧ x = .dict d := by
  rw [dict_run_dict hp] at h
  obtain ⟨d, w1, h1, h2⟩ := bind_ok_inv h
  cases h2
  obtain ⟨out, h3, rfl⟩ := foldDict_ok.1 h1
  refine ⟨out, _, h3, dictOf_dictOfPairs ?_, rfl⟩
  clear h h1
  intro q hq
  induction h3 with
  | nil => cases hq
  | cons h _ ih =>
    rcases List.mem_cons.1 hq with rfl | hq
    · obtain ⟨_, _, _, hh⟩ := h; exact hh
    · exact ih hq

/-- C30 for Dictionary: a dictionary whose entries are accepted is accepted. -/
theorem C30_dict_accepts {kvs out : List (Val × Val)} {w' : World}
    (he : Each (AcceptsPair E n nm inst kp vp) kvs w out w') :
    ∃ d, run E (n + 1) (.validate nm p inst (.dict kvs)) w = (.ok (.dict d), w') ∧ DictOf out d := by
  have h : run E (n + 1) (.validate nm p inst (.dict kvs)) w = (.ok (.dict (dictOfPairs out)), w') := by
    rw [dict_run_dict hp, bind_ok (foldDict_ok.2 ⟨out, he, rfl⟩)]
    rfl
  refine ⟨_, h, dictOf_dictOfPairs ?_⟩
  clear h
  intro q hq
  induction he with
  | nil => cases hq
  | cons h _ ih =>
    rcases List.mem_cons.1 hq with rfl | hq
    · obtain ⟨_, _, _, hh⟩ := h; exact hh
    · exact ih hq

/-- C30 for Dictionary: with `coerce` an iterable of pairs is treated like the
dictionary of these pairs. -/
theorem C30_dict_coerce (hc : c = true) {v : Val} (hv : ∀ kvs, v ≠ .dict kvs)
    {ps : List (Val × Val)} (h : IsPairs v ps) :
    ∃ d, DictOf ps d ∧ run E (n + 1) (.validate nm p inst v) w =
      run E (n + 1) (.validate nm p inst (.dict d)) w := by
  obtain ⟨xs, hx, hf⟩ := h
  have hm : xs.mapM pairOfVal? = some ps := by
    clear hx
    induction hf with
    | nil => rfl
    | @cons x q _ _ h _ ih =>
      have : pairOfVal? x = some q := by unfold pairOfVal?; rw [h.1]; dsimp only; rw [if_pos h.2]
      simp [List.mapM_cons, this, ih]
  have hd : dictCoerce? v = some (dictOfPairs ps) := by
    unfold dictCoerce?
    split
    · exact absurd rfl (hv _)
    · rw [hx]; dsimp only; rw [hm]; rfl
  refine ⟨dictOfPairs ps, dictOf_dictOfPairs ?_, ?_⟩
  · intro q hq
    clear hm hd hx
    induction hf with
    | nil => cases hq
    | cons h _ ih =>
      rcases List.mem_cons.1 hq with rfl | hq
      · exact h.2
      · exact ih hq
  · rw [dict_run_dict hp, dict_run hp, if_pos hc, hd]
    rfl

/-- C30 for Dictionary: any other value is rejected. -/
theorem C30_dict_kind {v : Val} (hv : ∀ kvs, v ≠ .dict kvs) (h : c = true → ∀ ps, ¬ IsPairs v ps)
    (hq : QuietInst E w inst) :
    IsValidationError (run E (n + 1) (.validate nm p inst v) w).1 := by
  have hd : (if c then dictCoerce? v else
      match (generalizing := false) v with | .dict kvs => some kvs | _ => none) = none := by
    cases hc : c with
    | false =>
      rw [if_neg Bool.false_ne_true]
      cases v <;> first | rfl | exact absurd rfl (hv _)
    | true =>
      rw [if_pos rfl]
      unfold dictCoerce?
      split
      · exact absurd rfl (hv _)
      · cases hx : v.iter? with
        | none => rfl
        | some xs =>
          dsimp only
          cases hm : xs.mapM pairOfVal? with
          | none => rfl
          | some ps =>
            refine absurd ⟨xs, hx, ?_⟩ (h hc ps)
            clear hx
            induction xs generalizing ps with
            | nil => cases hm; exact .nil
            | cons x xs ih =>
              simp only [List.mapM_cons, Option.bind_eq_bind, Option.bind_eq_some_iff,
                Option.pure_def, Option.some.injEq] at hm
              obtain ⟨q, h1, qs, h2, rfl⟩ := hm
              refine .cons ?_ (ih qs h2)
              unfold pairOfVal? at h1
              split at h1
              · rename_i a b hab
                split at h1
                · rename_i hh; cases h1; exact ⟨hab, hh⟩
                · cases h1
              · cases h1
  rw [dict_run hp, hd]
  obtain ⟨w1, h1, _⟩ := propError_quiet (α := List (Val × Val)) E (run E n) nm inst w hq
  rw [bind_err h1]
  exact ⟨_, rfl, rfl⟩

/-- C30 for Dictionary: the first key that is rejected ends the validation. -/
theorem C30_dict_key_rejected {pre post out : List (Val × Val)} {q : Val × Val} {w1 w2 : World}
    {e : PyErr} (he : Each (AcceptsPair E n nm inst kp vp) pre w out w1)
    (hk : run E n (.validate nm kp inst q.1) w1 = (.error e, w2)) (hq : QuietInst E w2 inst) :
    if e.kind.isValueError then
      IsValidationError (run E (n + 1) (.validate nm p inst (.dict (pre ++ q :: post))) w).1
    else run E (n + 1) (.validate nm p inst (.dict (pre ++ q :: post))) w = (.error e, w2) := by
  rw [dict_run_dict hp]
  have key : ∀ d e' w3, dictStep E n nm inst kp vp d q w1 = (.error e', w3) →
      ∀ d0, d = out.foldl (fun d kv => dictSet d kv.1 kv.2) d0 →
      foldML (dictStep E n nm inst kp vp) d0 (pre ++ q :: post) w = (.error e', w3) := by
    intro d e' w3 h
    clear hk hq hp
    induction he with
    | nil => intro d0 hd; subst hd; exact bind_err h
    | cons h1 _ ih =>
      intro d0 hd
      show foldML _ d0 (_ :: (_ ++ q :: post)) _ = _
      unfold foldML
      rw [bind_ok (dictStep_ok.2 ⟨_, h1, rfl⟩)]
      exact ih h _ hd
  split
  · rename_i hv
    obtain ⟨w3, h3, _⟩ := propError_quiet (α := Val) E (run E n) nm inst w2 hq
    have : ∀ d, dictStep E n nm inst kp vp d q w1 = (.error _, w3) := fun d => by
      unfold dictStep
      exact bind_err ((catchIf_err hk hv).trans h3)
    rw [bind_err (key _ _ _ (this _) [] rfl)]
    exact ⟨_, rfl, rfl⟩
  · rename_i hv
    have : ∀ d, dictStep E n nm inst kp vp d q w1 = (.error e, w2) := fun d => by
      unfold dictStep
      exact bind_err (catchIf_pass hk (by simpa using hv))
    rw [bind_err (key _ _ _ (this _) [] rfl)]

end

/-! ## Union -/

theorem tryProps_first {f : PropSpec → Call} : ∀ {ps : List PropSpec} {w w' : World} {x : Val},
    tryProps E (run E n) nm inst f ps w = (.ok x, w') ↔
      First ErrKind.isGeneric (fun q => run E n (f q)) ps w x w'
  | [], w, w', x => by
      constructor
      · intro h; exact absurd (congrArg Prod.fst h) (propError_never_ok E _ nm inst w _)
      · intro h; cases h
  | q :: ps, w, w', x => by
      constructor
      · intro h
        unfold tryProps at h
        cases hq : run E n (f q) w with
        | mk y w1 =>
          cases y with
          | ok y => rw [catchIf_ok hq] at h; cases h; exact .here hq
          | error e =>
            cases hg : e.kind.isGeneric with
            | true => rw [catchIf_err hq hg] at h; exact .later hq hg (tryProps_first.1 h)
            | false => rw [catchIf_pass hq hg] at h; cases h
      · intro h
        unfold tryProps
        cases h with
        | here hq => exact catchIf_ok hq
        | later hq hg h => rw [catchIf_err hq hg]; exact tryProps_first.2 h

theorem tryProps_none {f : PropSpec → Call} {w' : World} (hq : QuietInst E w' inst) :
    ∀ {ps : List PropSpec} {w : World},
    AllSkipped ErrKind.isGeneric (fun q => run E n (f q)) ps w w' →
    IsValidationError (tryProps E (run E n) nm inst f ps w).1
  | [], w, h => by
      cases h
      obtain ⟨w1, h1, _⟩ := propError_quiet (α := Val) E (run E n) nm inst _ hq
      unfold tryProps
      rw [h1]; exact ⟨_, rfl, rfl⟩
  | q :: ps, w, h => by
      cases h with
      | cons h1 h2 h3 => unfold tryProps; rw [catchIf_err h1 h2]; exact tryProps_none hq h3

theorem tryProps_escapes {f : PropSpec → Call} {e : PyErr} {w' : World} :
    ∀ {ps : List PropSpec} {w : World},
    Escapes ErrKind.isGeneric (fun q => run E n (f q)) ps w e w' →
    tryProps E (run E n) nm inst f ps w = (.error e, w')
  | [], w, h => by cases h
  | q :: ps, w, h => by
      unfold tryProps
      cases h with
      | here h1 h2 => exact catchIf_pass h1 h2
      | later h1 h2 h3 => rw [catchIf_err h1 h2]; exact tryProps_escapes h3

/-- For every list of alternatives exactly one of the three happens. -/
theorem first_cases (skip : ErrKind → Bool) (f : PropSpec → World → Except PyErr Val × World) :
    ∀ (ps : List PropSpec) (w : World), (∃ x w', First skip f ps w x w') ∨
      (∃ w', AllSkipped skip f ps w w') ∨ ∃ e w', Escapes skip f ps w e w'
  | [], w => .inr (.inl ⟨w, .nil w⟩)
  | p :: ps, w => by
      cases hp : f p w with
      | mk y w1 =>
        cases y with
        | ok x => exact .inl ⟨x, w1, .here hp⟩
        | error e =>
          cases hs : skip e.kind with
          | false => exact .inr (.inr ⟨e, w1, .here hp hs⟩)
          | true =>
            rcases first_cases skip f ps w1 with ⟨x, w', h⟩ | ⟨w', h⟩ | ⟨e', w', h⟩
            · exact .inl ⟨x, w', .later hp hs h⟩
            · exact .inr (.inl ⟨w', .cons hp hs h⟩)
            · exact .inr (.inr ⟨e', w', .later hp hs h⟩)

section
variable {ps : List PropSpec} {s : Bool} (hp : p.ty = .union ps s) {v : Val} {w : World}
include hp

theorem union_run : run E (n + 1) (.validate nm p inst v) w =
    tryProps E (run E n) nm inst (fun q => .validate nm q inst v) ps w := by
  show validateBody E (run E n) nm p inst v w = _
  unfold validateBody
  rw [hp]

/-- C32: a Union accepts a value with result `x` exactly if the first
alternative that accepts it, all before it failing with Value-, Key-, Type- or
AttributeError, does so with result `x`. -/
theorem C32_first_alternative {x : Val} {w' : World} :
    run E (n + 1) (.validate nm p inst v) w = (.ok x, w') ↔
      First ErrKind.isGeneric (fun q => run E n (.validate nm q inst v)) ps w x w' := by
  rw [union_run hp]; exact tryProps_first

/-- C32: if all alternatives fail in that way, the Union rejects. -/
theorem C32_all_rejected {w' : World}
    (h : AllSkipped ErrKind.isGeneric (fun q => run E n (.validate nm q inst v)) ps w w')
    (hq : QuietInst E w' inst) : IsValidationError (run E (n + 1) (.validate nm p inst v) w).1 := by
  rw [union_run hp]; exact tryProps_none hq h

/-- C32: any other exception of an alternative reached passes. -/
theorem C32_other_errors_pass {w' : World} {e : PyErr}
    (h : Escapes ErrKind.isGeneric (fun q => run E n (.validate nm q inst v)) ps w e w') :
    run E (n + 1) (.validate nm p inst v) w = (.error e, w') := by
  rw [union_run hp]; exact tryProps_escapes h

/-- The three cases above are all there are. -/
theorem C32_cases : (∃ x w', First ErrKind.isGeneric (fun q => run E n (.validate nm q inst v)) ps w x w') ∨
    (∃ w', AllSkipped ErrKind.isGeneric (fun q => run E n (.validate nm q inst v)) ps w w') ∨
    ∃ e w', Escapes ErrKind.isGeneric (fun q => run E n (.validate nm q inst v)) ps w e w' :=
  first_cases _ _ ps w

end

/-! ## Union and JSON -/

/-- What serializes a Union value: the alternatives up to the first that
accepts the value fail, and that one serializes it; if none accepts, a
HasProperties instance serializes itself and anything else is left as is. -/
inductive Spec.SerializedBy (E : Env) (n : Nat) (nm : PyStr) (v : Val) (kw : SerKw) :
    List PropSpec → World → Except PyErr Val × World → Prop
  | here {q : PropSpec} {ps : List PropSpec} {w w1 : World} {y : Val} :
      run E n (.validate nm q none v) w = (.ok y, w1) →
      SerializedBy E n nm v kw (q :: ps) w (run E n (.serializeP nm q v kw) w1)
  | later {q : PropSpec} {ps : List PropSpec} {w w1 : World} {e : PyErr} {out : Except PyErr Val × World} :
      run E n (.validate nm q none v) w = (.error e, w1) → e.kind.isGeneric = true →
      SerializedBy E n nm v kw ps w1 out → SerializedBy E n nm v kw (q :: ps) w out
  | escape {q : PropSpec} {ps : List PropSpec} {w w1 : World} {e : PyErr} :
      run E n (.validate nm q none v) w = (.error e, w1) → e.kind.isGeneric = false →
      SerializedBy E n nm v kw (q :: ps) w (.error e, w1)
  | instance (r : Nat) (w : World) : v = .obj r →
      SerializedBy E n nm v kw [] w (run E n (.hpSerialize r kw) w)
  | value (w : World) : (∀ r, v ≠ .obj r) → SerializedBy E n nm v kw [] w (.ok v, w)

theorem unionSerialize_by (v : Val) (kw : SerKw) : ∀ (ps : List PropSpec) (w : World),
    SerializedBy E n nm v kw ps w (unionSerialize (run E n) nm v kw ps w)
  | [], w => by
      unfold unionSerialize
      split
      · exact .instance _ _ rfl
      · rename_i h; exact .value _ h
  | q :: ps, w => by
      unfold unionSerialize
      rw [bind_ok (attempt_apply _ _)]
      cases hq : run E n (.validate nm q none v) w with
      | mk y w1 =>
        cases y with
        | ok x => exact .here hq
        | error e =>
          dsimp only
          split
          · rename_i hg; exact .later hq hg (unionSerialize_by v kw ps w1)
          · rename_i hg; exact .escape hq (by simpa using hg)

/-- C33: serialization of a Union value without registered serializer. -/
theorem C33_serialize {ps : List PropSpec} {s : Bool} (hp : p.ty = .union ps s)
    (hs : p.ser = none) (v : Val) (hv : v ≠ .none) (kw : SerKw) (w : World) :
    SerializedBy E n nm v kw ps w (run E (n + 1) (.serializeP nm p v kw) w) := by
  have : run E (n + 1) (.serializeP nm p v kw) w = unionSerialize (run E n) nm v kw ps w := by
    show serializeBody E (run E n) nm p v kw w = _
    unfold serializeBody
    rw [hs, hp]
    dsimp only
    rw [if_neg]
    cases v <;> simp [Val.isNone] at *
  rw [this]
  exact unionSerialize_by v kw ps w

/-- The alternative deserializes the value and accepts the result. -/
def deserializeAndCheck (E : Env) (n : Nat) (nm : PyStr) (v : Val) (kw : DeKw) (q : PropSpec) :
    M Val := do
  let out ← run E n (.deserializeP nm q v kw)
  let _ ← run E n (.validate nm q none out)
  pure out

/-- An Instance alternative for a class with this name. -/
def Spec.NamedBy (E : Env) (nm : PyStr) (q : PropSpec) : Prop :=
  ∃ c, q.ty = .inst c ∧ (E.classes c).name = nm

/-- The flags passed on by a Union: `strict_instances` switches on `strict`
and `assert_valid`; without it `assert_valid` is off. -/
def Spec.unionKw (s : Bool) (kw : DeKw) : DeKw :=
  { trusted := kw.trusted, strict := kw.strict || s, assertValid := s }

theorem namedAlternative_split {x : PyStr} {q : PropSpec} : ∀ {ps : List PropSpec},
    namedAlternative E (.str x) ps = some q ↔
      ∃ pre post, ps = pre ++ q :: post ∧ NamedBy E x q ∧ ∀ p ∈ pre, ¬ NamedBy E x p
  | [] => by simp [namedAlternative]
  | p :: ps => by
      have hn : ∀ c, pyEq (.str x) (.str (E.classes c).name) = true ↔ (E.classes c).name = x := by
        intro c; unfold pyEq; simp only [beq_iff_eq]; exact ⟨Eq.symm, Eq.symm⟩
      have rest : ¬ NamedBy E x p → (namedAlternative E (.str x) ps = some q ↔
          ∃ pre post, p :: ps = pre ++ q :: post ∧ NamedBy E x q ∧ ∀ p ∈ pre, ¬ NamedBy E x p) := by
        intro hp
        rw [namedAlternative_split]
        constructor
        · rintro ⟨pre, post, rfl, h1, h2⟩
          exact ⟨p :: pre, post, rfl, h1, fun p' hp' => by
            rcases List.mem_cons.1 hp' with rfl | h
            · exact hp
            · exact h2 _ h⟩
        · rintro ⟨pre, post, he, h1, h2⟩
          cases pre with
          | nil => cases he; exact absurd h1 hp
          | cons p' pre => cases he; exact ⟨pre, post, rfl, h1, fun p hp => h2 p (by simp [hp])⟩
      unfold namedAlternative
      split
      · rename_i c hc
        split
        · rename_i hx
          have hp : NamedBy E x p := ⟨c, hc, (hn c).1 hx⟩
          constructor
          · intro h; cases h; exact ⟨[], ps, rfl, hp, by simp⟩
          · rintro ⟨pre, post, he, h1, h2⟩
            cases pre with
            | nil => cases he; rfl
            | cons p' pre => cases he; exact absurd hp (h2 _ (by simp))
        · rename_i hx
          refine rest ?_
          rintro ⟨c', hc', h⟩
          rw [hc] at hc'; cases hc'
          exact hx ((hn _).2 h)
      · rename_i hc
        refine rest ?_
        rintro ⟨c', hc', _⟩
        exact hc c' hc'

/-- The alternative selected by name. -/
def byName (E : Env) (ps : List PropSpec) : Val → Option PropSpec
  | .dict kvs =>
      if ((dictGet? kvs (.str (s% "__class__"))).getD .none).truthy then
        namedAlternative E ((dictGet? kvs (.str (s% "__class__"))).getD .none) ps
      else none
  | _ => none

/-- Run the alternative selected by name, or try them in order. -/
def deserUnion (E : Env) (n : Nat) (nm : PyStr) (v : Val) (kw : DeKw) (ps : List PropSpec) :
    Option PropSpec → M Val
  | some q => run E n (.deserializeP nm q v kw)
  | none => unionDeserialize (run E n) nm v kw ps

section
variable {ps : List PropSpec} {s : Bool} (hp : p.ty = .union ps s) (hd : p.deser = none)
  {v : Val} {kw : DeKw} {w : World}
include hp hd

theorem deser_run' (hv : v ≠ .none) : run E (n + 1) (.deserializeP nm p v kw) w =
    deserUnion E n nm v (unionKw s kw) ps (byName E ps v) w := by
  show deserializeBody E (run E n) nm p v kw w = _
  unfold deserializeBody
  rw [hd, hp]
  dsimp only
  rw [if_neg (by cases v <;> simp [Val.isNone] at *)]
  have : ∀ o : Option PropSpec, (match (generalizing := false) o with
      | some q => run E n (.deserializeP nm q v (unionKw s kw))
      | none => unionDeserialize (run E n) nm v (unionKw s kw) ps) =
        deserUnion E n nm v (unionKw s kw) ps o := by
    intro o; cases o <;> rfl
  rw [← this]
  cases v <;> rfl

/-- C33: an input dictionary with a class name is deserialized by the first
Instance alternative whose class has that name, whatever the outcome. -/
theorem C33_deserialize_named {kvs : List (Val × Val)} {x : PyStr} {q : PropSpec}
    {pre post : List PropSpec} (hv : v = .dict kvs)
    (hx : dictGet? kvs (.str (s% "__class__")) = some (.str x)) (hne : x ≠ [])
    (hs : ps = pre ++ q :: post) (hq : NamedBy E x q) (hpre : ∀ p ∈ pre, ¬ NamedBy E x p) :
    run E (n + 1) (.deserializeP nm p v kw) w = run E n (.deserializeP nm q v (unionKw s kw)) w := by
  rw [deser_run' hp hd (by rw [hv]; simp)]
  have h1 : (Val.str x).truthy = true := by
    cases x with
    | nil => exact absurd rfl hne
    | cons _ _ => rfl
  have h2 : byName E ps v = some q := by
    rw [hv]
    unfold byName
    dsimp only
    rw [hx]
    show (if (Val.str x).truthy = true then namedAlternative E (.str x) ps else none) = some q
    rw [if_pos h1, namedAlternative_split.2 ⟨pre, post, hs, hq, hpre⟩]
  rw [h2]
  rfl

/-- Which inputs select no alternative by name. -/
def Spec.Unnamed (E : Env) (ps : List PropSpec) (v : Val) : Prop :=
  ∀ kvs, v = .dict kvs → ∀ x, dictGet? kvs (.str (s% "__class__")) = some x → x.truthy = true →
    ∀ q ∈ ps, ∀ c, q.ty = .inst c → pyEq x (.str (E.classes c).name) = false

theorem deser_run (hv : v ≠ .none) (hu : Unnamed E ps v) :
    run E (n + 1) (.deserializeP nm p v kw) w =
      unionDeserialize (run E n) nm v (unionKw s kw) ps w := by
  have hno : ∀ x ps, (∀ q ∈ ps, ∀ c, q.ty = .inst c → pyEq x (.str (E.classes c).name) = false) →
      namedAlternative E x ps = none := by
    intro x ps
    induction ps with
    | nil => intro _; rfl
    | cons q ps ih =>
      intro h
      unfold namedAlternative
      split
      · rename_i c hc
        rw [h q (by simp) c hc]
        exact ih fun q hq => h q (by simp [hq])
      · exact ih fun q hq => h q (by simp [hq])
  have : byName E ps v = none := by
    cases v with
    | dict kvs =>
      unfold byName
      dsimp only
      cases hx : dictGet? kvs (.str (s% "__class__")) with
      | none => rfl
      | some x =>
        show (if x.truthy = true then namedAlternative E x ps else none) = none
        split
        · rename_i ht; exact hno x ps (hu kvs rfl x hx ht)
        · rfl
    | _ => rfl
  rw [deser_run' hp hd hv, this]
  rfl

/-- C33: otherwise the first alternative that deserializes the input to a value
it accepts. -/
theorem C33_deserialize_first (hv : v ≠ .none) (hu : Unnamed E ps v) {x : Val} {w' : World}
    (h : First ErrKind.isGeneric (deserializeAndCheck E n nm v (unionKw s kw)) ps w x w') :
    run E (n + 1) (.deserializeP nm p v kw) w = (.ok x, w') := by
  rw [deser_run hp hd hv hu]
  clear hp hu
  induction h with
  | here h => exact catchIf_ok h
  | later h1 h2 _ ih => exact (catchIf_err h1 h2).trans ih

/-- C33: if there is none, the input is left as it is. -/
theorem C33_deserialize_none (hv : v ≠ .none) (hu : Unnamed E ps v) {w' : World}
    (h : AllSkipped ErrKind.isGeneric (deserializeAndCheck E n nm v (unionKw s kw)) ps w w') :
    run E (n + 1) (.deserializeP nm p v kw) w = (.ok v, w') := by
  rw [deser_run hp hd hv hu]
  clear hp hu
  induction h with
  | nil => rfl
  | cons h1 h2 _ ih => exact (catchIf_err h1 h2).trans ih

/-- C33: other exceptions pass. -/
theorem C33_deserialize_escapes (hv : v ≠ .none) (hu : Unnamed E ps v) {e : PyErr} {w' : World}
    (h : Escapes ErrKind.isGeneric (deserializeAndCheck E n nm v (unionKw s kw)) ps w e w') :
    run E (n + 1) (.deserializeP nm p v kw) w = (.error e, w') := by
  rw [deser_run hp hd hv hu]
  clear hp hu
  induction h with
  | here h1 h2 => exact catchIf_pass h1 h2
  | later h1 h2 _ ih => exact (catchIf_err h1 h2).trans ih

end

end

/-! ## Examples -/

def c30Int : PropSpec := .mk true none none .undef (.integer false none none)
def c30Str : PropSpec := .mk true none none .undef (.string [] .keep none)
def c30List : PropSpec := .mk true none none .undef (.seq .list c30Int none none false)
def c30Dict : PropSpec := .mk true none none .undef (.dict c30Str c30Int true)
def c30Union : PropSpec := .mk true none none .undef (.union [c30Str, c30Int] false)

/-- A list of integers is accepted, also by the hypotheses of the theorems. -/
example : Each (Accepts demoEnv 3 (s% "l") none c30Int) [.int 1, .int 2] {} [.int 1, .int 2] {} :=
  .cons (by with_unfolding_all rfl) (.cons (by with_unfolding_all rfl) (.nil _))

/-- The second item of `[1, 'a']` is rejected. -/
example : Each (Accepts demoEnv 3 (s% "l") none c30Int) [.int 1] {} [.int 1] {} ∧
    ((run demoEnv 3 (.validate (s% "l") c30Int none (.str (s% "a"))) {}).1).isOk = false := by
  exact ⟨.cons (by with_unfolding_all rfl) (.nil _), by with_unfolding_all rfl⟩

/-- With `coerce` a list of pairs is taken as a dictionary. -/
example : IsPairs (.list [.tup [.str (s% "a"), .int 1]]) [(.str (s% "a"), .int 1)] :=
  ⟨_, rfl, .cons ⟨rfl, rfl⟩ .nil⟩

theorem C30_example :
    (run demoEnv 4 (.validate (s% "d") c30Dict none (.list [.tup [.str (s% "a"), .int 1]])) {}).1 =
      .ok (.dict [(.str (s% "a"), .int 1)]) := by with_unfolding_all rfl

/-- The Union of String and Integer takes the second alternative for 3. -/
example : First ErrKind.isGeneric (fun q => run demoEnv 3 (.validate (s% "u") q none (.int 3)))
    [c30Str, c30Int] {} (.int 3) {} :=
  .later (e := ⟨.validation, [⟨some (s% "invalid"), some (s% "u"), none⟩]⟩) (w1 := {})
    (by with_unfolding_all rfl) rfl (.here (by with_unfolding_all rfl))

/-- And it serializes by the second. -/
theorem C33_example : (run demoEnv 4 (.serializeP (s% "u") c30Union (.int 3) {}) {}).1 = .ok (.int 3) := by
  with_unfolding_all rfl

/-- C32: the errors after which a Union tries its next alternative, and which the
constructor collects (C16), are ValueError (with ValidationError), KeyError, TypeError and
AttributeError (base.py:22), and no others. -/
theorem C32_errors (k : ErrKind) : k.isGeneric = true ↔
    k = .validation ∨ k = .value ∨ k = .key ∨ k = .type ∨ k = .attr := by
  cases k <;> simp [ErrKind.isGeneric]

/-- C30: the errors of an item that the container reports as its own are ValueErrors. -/
theorem C30_errors (k : ErrKind) : k.isValueError = true ↔ k = .validation ∨ k = .value := by
  cases k <;> simp [ErrKind.isValueError]

end Verif
