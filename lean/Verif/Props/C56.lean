import Verif.Spec.StopRecursion

/-!
# C56: stop_recursion_with
-/

namespace Verif.StopRec
open Spec

variable {μ ο : Type} [DecidableEq μ] [DecidableEq ο]

/-- The pairs in progress are those of the decorators. -/
def Tracks (h : Held μ ο) (p : List (μ × ο)) : Prop := ∀ m x, x ∈ h m ↔ (m, x) ∈ p

theorem _root_.Verif.Spec.Once.append {same : ο → ο → Prop} {p : List (μ × ο)}
    {t1 t2 : List (Event μ ο)} (h1 : Once same p t1) (h2 : Once same p t2) :
    Once same p (t1 ++ t2) := by
  induction h1 with
  | nil => exact h2
  | run hn ha _ _ ih2 =>
    have := Once.run hn ha (ih2 h2)
    simpa using this
  | backup hm hs _ ih => exact .backup hm hs (ih h2)

theorem remove_last (S : Sys μ ο) {o : ο} : ∀ {l : List ο}, l.any (fun x => S.same x o) = false →
    S.remove o (l ++ [o]) = some l
  | [], _ => by simp [Sys.remove, Sys.same]
  | x :: l, h => by
      simp only [List.any_cons, Bool.or_eq_false_iff] at h
      rw [List.cons_append, Sys.remove, h.1, if_neg (by simp), remove_last S h.2]
      rfl

theorem set_set (h : Held μ ο) (m : μ) (l : List ο) : (h.set m l).set m (h m) = h := by
  funext m'
  unfold Held.set
  split
  · rename_i he; rw [he]
  · rfl

mutual
theorem exec_ok {S : Sys μ ο} : ∀ {p : Prog μ ο} {h h' : Held μ ο} {r : Res} {t : List (Event μ ο)},
    Exec S p h r h' t → h' = h ∧
      ∀ pr, Tracks h pr → Once (fun x o => S.same x o = true) pr t
  | _, _, _, _, _, .ret => ⟨rfl, fun _ _ => .nil⟩
  | _, _, _, _, _, .raise => ⟨rfl, fun _ _ => .nil⟩
  | _, _, _, _, _, .call hc he => by
      obtain ⟨h1, h2⟩ := runOnce_ok hc
      subst h1
      obtain ⟨h3, h4⟩ := exec_ok he
      subst h3
      exact ⟨rfl, fun pr ht => (h2 pr ht).append (h4 pr ht)⟩
theorem runOnce_ok {S : Sys μ ο} : ∀ {m : μ} {o : ο} {h h' : Held μ ο} {r : Res}
    {t : List (Event μ ο)}, RunOnce S m o h r h' t → h' = h ∧
      ∀ pr, Tracks h pr → Once (fun x o => S.same x o = true) pr t
  | _, _, _, _, _, _, .held hin he => by
      obtain ⟨h1, h2⟩ := exec_ok he
      subst h1
      refine ⟨rfl, fun pr ht => ?_⟩
      obtain ⟨x, hx, hs⟩ := List.any_eq_true.1 hin
      exact .backup ((ht _ x).1 hx) hs (h2 pr ht)
  | m, o, h, _, _, _, .fresh (r := r) (t := t) hin he => by
      obtain ⟨h1, h2⟩ := exec_ok he
      subst h1
      have hf : S.finish m o (h.set m (h m ++ [o])) r = (r, h) := by
        unfold Sys.finish
        have : (h.set m (h m ++ [o])) m = h m ++ [o] := by simp [Held.set]
        rw [this, remove_last S hin]
        dsimp only
        rw [set_set]
      rw [hf]
      refine ⟨rfl, fun pr ht => ?_⟩
      refine .run (t2 := []) (fun x hx hs => ?_) (h2 _ ?_) .nil
      · rw [List.any_eq_false] at hin
        exact hin x ((ht m x).2 hx) hs
      · intro m' x
        unfold Held.set
        split
        · rename_i he
          subst he
          simp only [List.mem_append, List.mem_cons, List.not_mem_nil, or_false, Prod.mk.injEq,
            true_and, ht m' x]
          exact or_comm
        · rename_i hne
          simp [ht m' x, hne]
end

/-- Whatever the bodies and backups do, and however `==` is defined: after a
call every decorator holds what it held before; bodies start only for objects
that are not in progress, and the backup is used exactly for those that are. -/
theorem C56_once (S : Sys μ ο) {m : μ} {o : ο} {h h' : Held μ ο} {r : Res}
    {t : List (Event μ ο)} (hr : RunOnce S m o h r h' t) {pr : List (μ × ο)}
    (hp : ∀ m x, x ∈ h m ↔ (m, x) ∈ pr) :
    h' = h ∧ Once (fun x o => x = o ∨ S.eqv x o = true) pr t := by
  obtain ⟨h1, h2⟩ := runOnce_ok hr
  refine ⟨h1, ?_⟩
  have := h2 pr hp
  have e : (fun x o => S.same x o = true) = (fun x o => x = o ∨ S.eqv x o = true) := by
    funext x o
    simp [Sys.same]
  rwa [e] at this

/-- The result is that of the body, run with the object held, if the object is
not in progress, and otherwise that of the backup, raised if it is an exception. -/
theorem C56_result (S : Sys μ ο) {m : μ} {o : ο} {h h' : Held μ ο} {r : Res}
    {t : List (Event μ ο)} (hr : RunOnce S m o h r h' t) :
    ((∃ x ∈ h m, x = o ∨ S.eqv x o = true) → ∃ r0 t0, Exec S (S.backup m o) h r0 h t0 ∧
      t = .backup m o :: t0 ∧ (∀ n, r0 = .ok (.exn n) → r = .raised n) ∧
      ((∀ n, r0 ≠ .ok (.exn n)) → r = r0)) ∧
    ((∀ x ∈ h m, ¬ (x = o ∨ S.eqv x o = true)) → ∃ t0,
      Exec S (S.body m o) (fun m' => if m' = m then h m ++ [o] else h m') r
        (fun m' => if m' = m then h m ++ [o] else h m') t0 ∧
      t = .start m o :: t0 ++ [.stop m o]) := by
  cases hr with
  | @held _ _ _ _ r0 t0 hin he =>
    obtain ⟨h1, -⟩ := exec_ok he
    subst h1
    refine ⟨fun _ => ⟨r0, t0, he, rfl, ?_, ?_⟩, fun hn => ?_⟩
    · rintro n rfl; rfl
    · intro hn
      unfold raiseIfExn
      split
      · exact absurd rfl (hn _)
      · rfl
    · obtain ⟨x, hx, hs⟩ := List.any_eq_true.1 hin
      exact absurd (by simpa [Sys.same] using hs) (hn x hx)
  | @fresh _ _ _ h1 r0 t0 hin he =>
    obtain ⟨h1, -⟩ := exec_ok he
    subst h1
    have hf : S.finish m o (h.set m (h m ++ [o])) r0 = (r0, h) := by
      unfold Sys.finish
      have : (h.set m (h m ++ [o])) m = h m ++ [o] := by simp [Held.set]
      rw [this, remove_last S hin]
      dsimp only
      rw [set_set]
    rw [hf]
    refine ⟨fun ⟨x, hx, hs⟩ => ?_, fun _ => ⟨t0, he, rfl⟩⟩
    rw [List.any_eq_false] at hin
    exact absurd (by simpa [Sys.same] using hs) (hin x hx)

theorem length_filter_lt {α : Type} {p q : α → Bool} (hpq : ∀ a, p a = true → q a = true)
    {a : α} {l : List α} (ha : a ∈ l) (hq : q a = true) (hp : p a = false) :
    (l.filter p).length < (l.filter q).length := by
  have hle : ∀ l : List α, (l.filter p).length ≤ (l.filter q).length := by
    intro l
    induction l with
    | nil => simp
    | cons b l ih =>
      rw [List.filter_cons, List.filter_cons]
      cases hpb : p b with
      | true => rw [hpq b hpb]; simpa using ih
      | false => cases q b <;> simp <;> omega
  induction l with
  | nil => cases ha
  | cons b l ih =>
    rw [List.filter_cons, List.filter_cons]
    rcases List.mem_cons.1 ha with rfl | ha
    · have := hle l
      rw [hp, hq]
      simp
      omega
    · have := ih ha
      cases hpb : p b with
      | true => rw [hpq b hpb]; simpa using this
      | false => cases q b <;> simp <;> omega

/-- With finitely many methods and objects, and backups that call no decorated
method, every call ends, whatever the bodies do. -/
theorem C56_terminates (S : Sys μ ο) (all : List (μ × ο)) (hall : ∀ p, p ∈ all)
    (hb : ∀ m o, Simple (S.backup m o)) (m : μ) (o : ο) (h : Held μ ο) :
    ∃ r h' t, RunOnce S m o h r h' t := by
  have key : ∀ (n : Nat) (h : Held μ ο),
      (all.filter fun p => !(h p.1).any fun x => S.same x p.2).length ≤ n →
      (∀ p : Prog μ ο, ∃ r h' t, Exec S p h r h' t) ∧ ∀ m o, ∃ r h' t, RunOnce S m o h r h' t := by
    intro n
    induction n with
    | zero =>
      intro h hn
      have hheld : ∀ m o, (h m).any (fun x => S.same x o) = true := by
        intro m o
        cases hc : (h m).any (fun x => S.same x o) with
        | true => rfl
        | false =>
          have : (m, o) ∈ all.filter fun p => !(h p.1).any fun x => S.same x p.2 :=
            List.mem_filter.2 ⟨hall _, by simp [hc]⟩
          rw [List.length_eq_zero_iff.1 (Nat.le_zero.1 hn)] at this
          cases this
      have hrun : ∀ m o, ∃ r h' t, RunOnce S m o h r h' t := by
        intro m o
        have hs := hb m o
        cases hp : S.backup m o with
        | ret r => exact ⟨_, _, _, .held (hheld m o) (by rw [hp]; exact .ret)⟩
        | raise n => exact ⟨_, _, _, .held (hheld m o) (by rw [hp]; exact .raise)⟩
        | call m' o' k => rw [hp] at hs; cases hs
      refine ⟨fun p => ?_, hrun⟩
      induction p with
      | ret r => exact ⟨_, _, _, .ret⟩
      | raise n => exact ⟨_, _, _, .raise⟩
      | call m o k ih =>
        obtain ⟨r, h', t, hr⟩ := hrun m o
        have := (runOnce_ok hr).1
        subst this
        obtain ⟨r2, h2, t2, h2⟩ := ih r
        exact ⟨_, _, _, .call hr h2⟩
    | succ n ihn =>
      intro h hn
      have hrun : ∀ m o, ∃ r h' t, RunOnce S m o h r h' t := by
        intro m o
        cases hc : (h m).any (fun x => S.same x o) with
        | true =>
          have hs := hb m o
          cases hp : S.backup m o with
          | ret r => exact ⟨_, _, _, .held hc (by rw [hp]; exact .ret)⟩
          | raise n => exact ⟨_, _, _, .held hc (by rw [hp]; exact .raise)⟩
          | call m' o' k => rw [hp] at hs; cases hs
        | false =>
          suffices hle : _ by
            obtain ⟨r, h', t, he⟩ := (ihn (h.set m (h m ++ [o])) hle).1 (S.body m o)
            exact ⟨_, _, _, .fresh hc he⟩
          · have hlt : (all.filter fun p => !((h.set m (h m ++ [o])) p.1).any
                fun x => S.same x p.2).length <
                (all.filter fun p => !(h p.1).any fun x => S.same x p.2).length := by
              have hsub : ∀ p : μ × ο, (!((h.set m (h m ++ [o])) p.1).any fun x => S.same x p.2) = true →
                  (!(h p.1).any fun x => S.same x p.2) = true := by
                intro p hp
                unfold Held.set at hp
                split at hp
                · rename_i hm
                  rw [hm]
                  simp only [List.any_append, Bool.not_or, Bool.and_eq_true] at hp
                  exact hp.1
                · exact hp
              have hgone : (m, o) ∈ all ∧ (!(h m).any fun x => S.same x o) = true ∧
                  (!((h.set m (h m ++ [o])) m).any fun x => S.same x o) = false :=
                ⟨hall _, by simp [hc], by simp [Held.set, Sys.same]⟩
              exact length_filter_lt hsub hgone.1 hgone.2.1 hgone.2.2
            omega
      refine ⟨fun p => ?_, hrun⟩
      induction p with
      | ret r => exact ⟨_, _, _, .ret⟩
      | raise n => exact ⟨_, _, _, .raise⟩
      | call m o k ih =>
        obtain ⟨r, h', t, hr⟩ := hrun m o
        have := (runOnce_ok hr).1
        subst this
        obtain ⟨r2, h2, t2, h2⟩ := ih r
        exact ⟨_, _, _, .call hr h2⟩
  exact (key _ h (Nat.le_refl _)).2 m o

/-- Two objects whose bodies call each other, one of them after raising and
catching. -/
def c56Sys : Sys Unit Bool where
  body _ o := if o then .call () false fun r => match r with
      | .raised _ => .call () true fun _ => .ret (.val 1)
      | _ => .raise 9
    else .call () true fun _ => .raise 3
  backup _ _ := .ret (.exn 7)
  eqv _ _ := false

theorem C56_example : RunOnce c56Sys () true (fun _ => []) (.ok (.val 1)) (fun _ => [])
    [.start () true, .start () false, .backup () true, .stop () false, .backup () true,
      .stop () true] := by
  have hb : ∀ h : Held Unit Bool, (h ()).any (fun x => c56Sys.same x true) = true →
      RunOnce c56Sys () true h (.raised 7) h [.backup () true] := fun h hh => .held (r := .ok (.exn 7)) hh .ret
  have h2 : RunOnce c56Sys () false (fun _ => [true]) (.raised 3) (fun _ => [true])
      [.start () false, .backup () true, .stop () false] :=
    .fresh (r := .raised 3) (h1 := fun _ => [true, false]) (t := [.backup () true]) (by decide)
      (.call (t2 := []) (hb _ (by decide)) .raise)
  exact .fresh (r := .ok (.val 1)) (h1 := fun _ => [true])
    (t := [.start () false, .backup () true, .stop () false, .backup () true]) (by decide)
    (.call (t2 := [.backup () true]) h2 (.call (t2 := []) (hb _ (by decide)) .ret))

end Verif.StopRec
