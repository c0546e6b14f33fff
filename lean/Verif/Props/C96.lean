import Verif.Props.C37
import Verif.Props.C15
import Verif.Spec.Warnings

/-!
# C96: warnings of renamed properties
-/

namespace Verif
open Spec
namespace Warnings

theorem final_lookup {props : List (PyStr × Entry)} {nm : PyStr} (h : Final props nm) :
    ∀ new, lookupS nm props ≠ some (.renamed new) := by
  intro new hl
  refine h new ?_
  induction props with
  | nil => cases hl
  | cons kv props ih =>
    obtain ⟨k, e⟩ := kv
    unfold lookupS at hl
    split at hl
    · rename_i hk
      cases hl
      have : k = nm := by simpa using hk
      subst this
      exact List.mem_cons_self ..
    · exact List.mem_cons_of_mem _ (ih (fun n hn => h n (List.mem_cons_of_mem _ hn)) hl)

section
variable {E : Env} {S : Setup} {w : World} {r : Nat} {o : Obj}

theorem use_final (u : Use) (n : Nat) (ho : w.objs[r]? = some o) {nm : PyStr} (h : Final (E.classes o.cls).props nm)
    (log : List Warning) : use E S u n r nm w log = (run E n (u.call r nm) w, log) := by
  cases n with
  | zero =>
    cases u <;> rfl
  | succ n =>
    unfold use
    rw [ho]
    dsimp only
    split
    · rename_i new hl
      exact absurd hl (final_lookup h new)
    · rfl

/-- C96: a use through an old name issues one warning for each renaming on the way that has not been
told not to warn, in order and naming both names; then the attribute at the end of the chain is used:
the outcome and the effects are those of the main model, for the old name as for the new. -/
theorem C96_warns (ho : w.objs[r]? = some o) (hnd : ((E.classes o.cls).props.map Prod.fst).Nodup) (u : Use)
    {nm target : PyStr} {l : List Warning} (hl : Renamings (E.classes o.cls).props nm l target)
    (ht : Final (E.classes o.cls).props target) (hF : ∀ x ∈ l, S.warns o.cls x.old = true → S.isError x = false)
    (n : Nat) (log : List Warning) :
    use E S u (n + l.length) r nm w log =
      (run E n (u.call r target) w, log ++ l.filter (fun x => S.warns o.cls x.old)) ∧
    run E (n + l.length) (u.call r nm) w = run E n (u.call r target) w := by
  induction hl generalizing log with
  | here nm =>
    refine ⟨?_, rfl⟩
    rw [use_final u _ ho ht]
    simp
  | step nm new target l hm _ ih =>
    have hlk := lookupS_of_mem_nodup hnd hm
    obtain ⟨h1, h2⟩ := ih ht (fun x hx => hF x (List.mem_cons_of_mem _ hx))
      (log ++ if S.warns o.cls nm = true then [⟨nm, new⟩] else [])
    constructor
    · show use E S u ((n + l.length) + 1) r nm w log = _
      unfold use
      rw [ho]
      dsimp only
      rw [hlk]
      dsimp only
      have hd : display S o.cls nm new log = (.ok (), log ++ if S.warns o.cls nm = true then [⟨nm, new⟩] else []) := by
        unfold display
        by_cases hw : S.warns o.cls nm = true
        · rw [if_pos hw, if_neg (by rw [hF ⟨nm, new⟩ (by simp) hw]; simp), if_pos hw]
        · rw [if_neg hw, if_neg hw, List.append_nil]
      rw [hd]
      dsimp only
      rw [h1, List.append_assoc]
      congr 2
      by_cases hw : S.warns o.cls nm = true
      · rw [if_pos hw, List.filter_cons_of_pos (by exact hw)]; rfl
      · rw [if_neg hw, List.filter_cons_of_neg (by exact hw)]; rfl
    · rw [← h2]
      cases u with
      | get => exact getattr_renamed (rec := run E (n + l.length)) ho hlk
      | set v => exact setattr_renamed (rec := run E (n + l.length)) ho v hlk
      | del => exact delattr_renamed (rec := run E (n + l.length)) ho hlk

/-- C96: without renamings that warn, there is no warning; where all warn, their number is that of the
renamings on the way. -/
theorem C96_count (c : ClsId) (l : List Warning) :
    ((∀ x ∈ l, S.warns c x.old = false) → l.filter (fun x => S.warns c x.old) = []) ∧
    ((∀ x ∈ l, S.warns c x.old = true) → (l.filter (fun x => S.warns c x.old)).length = l.length) := by
  constructor <;> intro h
  · exact List.filter_eq_nil_iff.2 fun x hx => by rw [h x hx]; simp
  · rw [List.filter_eq_self.2 h]

/-- C96: where a warning is turned into an exception, the use ends with it: nothing has been read,
assigned or deleted, and the warnings before it have been issued. -/
theorem C96_error (ho : w.objs[r]? = some o) (hnd : ((E.classes o.cls).props.map Prod.fst).Nodup) (u : Use)
    {nm mid new : PyStr} {l : List Warning} (hl : Renamings (E.classes o.cls).props nm l mid)
    (hm : (mid, .renamed new) ∈ (E.classes o.cls).props) (hw : S.warns o.cls mid = true)
    (he : S.isError ⟨mid, new⟩ = true) (hF : ∀ x ∈ l, S.warns o.cls x.old = true → S.isError x = false)
    (n : Nat) (log : List Warning) :
    use E S u (n + 1 + l.length) r nm w log =
      ((.error futureWarning, w), log ++ l.filter (fun x => S.warns o.cls x.old)) := by
  induction hl generalizing log with
  | here nm =>
    show use E S u (n + 1) r nm w log = _
    unfold use
    rw [ho]
    dsimp only
    rw [lookupS_of_mem_nodup hnd hm]
    dsimp only
    unfold display
    rw [if_pos hw, if_pos he]
    simp
  | step nm new' target l hm' _ ih =>
    have h1 := ih hm hw he (fun x hx => hF x (List.mem_cons_of_mem _ hx))
      (log ++ if S.warns o.cls nm = true then [⟨nm, new'⟩] else [])
    show use E S u ((n + 1 + l.length) + 1) r nm w log = _
    unfold use
    rw [ho]
    dsimp only
    rw [lookupS_of_mem_nodup hnd hm']
    dsimp only
    have hd : display S o.cls nm new' log = (.ok (), log ++ if S.warns o.cls nm = true then [⟨nm, new'⟩] else []) := by
      unfold display
      by_cases hw : S.warns o.cls nm = true
      · rw [if_pos hw, if_neg (by rw [hF ⟨nm, new'⟩ (by simp) hw]; simp), if_pos hw]
      · rw [if_neg hw, if_neg hw, List.append_nil]
    rw [hd]
    dsimp only
    rw [h1, List.append_assoc]
    congr 2
    by_cases hw : S.warns o.cls nm = true
    · rw [if_pos hw, List.filter_cons_of_pos (by exact hw)]; rfl
    · rw [if_neg hw, List.filter_cons_of_neg (by exact hw)]; rfl

/-- C96: a use of a name that is not renamed never warns. -/
theorem C96_new_name (u : Use) (n : Nat) (ho : w.objs[r]? = some o) {nm : PyStr}
    (h : Final (E.classes o.cls).props nm) (log : List Warning) :
    use E S u n r nm w log = (run E n (u.call r nm) w, log) := use_final u n ho h log

end

/-- C96: a Renamed property is declared by a text and, optionally, a bool, and warns unless told not
to; anything else is refused with TypeError. -/
theorem C96_declare (newName : Val) (warn : Option Val) :
    (∀ s b, declare newName warn = .ok (s, b) ↔
      newName = .str s ∧ ((warn = none ∧ b = true) ∨ warn = some (.bool b))) ∧
    ((∀ s b, declare newName warn ≠ .ok (s, b)) → declare newName warn = .error .type) := by
  cases newName with
  | str t =>
    cases warn with
    | none =>
      refine ⟨fun s b => ?_, fun h => absurd rfl (h t true)⟩
      simp [declare, eq_comm]
    | some v =>
      cases v with
      | bool x =>
        refine ⟨fun s b => ?_, fun h => absurd rfl (h t x)⟩
        simp [declare]
      | _ => exact ⟨fun s b => by simp [declare], fun _ => rfl⟩
  | _ => exact ⟨fun s b => by simp [declare], fun _ => rfl⟩

/-! ## Example -/

/-- `old` → `mid` → `p` as in C37; `mid` does not warn. -/
def c96Setup (err : Bool) : Setup := { warns := fun _ nm => nm != s% "mid", isError := fun _ => err }

/-- Reading `old` warns once; when warnings are errors, assigning to it does nothing, assigning to
`mid` still works. -/
theorem C96_example :
    (use c37Env (c96Setup false) (.set (.str (s% "v"))) 6 0 (s% "old") (run c37Env 6 (.construct 0 []) {}).2 []).2 =
      [⟨s% "old", s% "mid"⟩] ∧
    (use c37Env (c96Setup true) (.set (.str (s% "v"))) 6 0 (s% "old") (run c37Env 6 (.construct 0 []) {}).2 []).1.1 =
      .error futureWarning ∧
    (use c37Env (c96Setup true) (.set (.str (s% "v"))) 6 0 (s% "old") (run c37Env 6 (.construct 0 []) {}).2 []).1.2.objs.map
      Obj.backend = [[]] ∧
    (use c37Env (c96Setup true) (.set (.str (s% "v"))) 6 0 (s% "mid") (run c37Env 6 (.construct 0 []) {}).2 []).1.2.objs.map
      Obj.backend = [[(s% "p", .str (s% "v"))]] := by
  refine ⟨?_, ?_, ?_, ?_⟩ <;> with_unfolding_all rfl

/-- The hypotheses hold there. -/
example : ((c37Env.classes 0).props.map Prod.fst).Nodup ∧
    Renamings (c37Env.classes 0).props (s% "old") [⟨s% "old", s% "mid"⟩, ⟨s% "mid", s% "p"⟩] (s% "p") ∧
    Final (c37Env.classes 0).props (s% "p") := by
  refine ⟨by decide, .step _ _ _ _ (by simp [c37Env]) (.step _ _ _ _ (by simp [c37Env]) (.here _)), fun new h => ?_⟩
  simp [c37Env] at h

end Warnings
end Verif
