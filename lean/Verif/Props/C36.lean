import Verif.Props.C35
import Verif.Spec.Docs

/-!
# C36: class documentation lists every property once
-/

namespace Verif.Cls
open Spec

/-- Every class with the metaclass was made by one class statement from the
classes before it. -/
theorem made_by {chk : PyStr → Entry → Dflt → Option ErrKind} {S : State} (hS : Reachable chk S)
    {i : ClsId} {k : Class} (hk : S.classes[i]? = some k) (hp : k.hp = true) :
    ∃ S0 d mro k0, Reachable chk S0 ∧ S0.classes <+: S.classes ∧ i = S0.classes.length ∧
      (∀ b ∈ d.bases, b < S0.classes.length) ∧ (d.body.map Prod.fst).Nodup ∧
      c3 S0.classes d.bases = some mro ∧ buildClass S0.classes d mro = .ok k0 ∧
      k = { k0 with defaults := some (mergedDefaults S0.classes mro d.defaults) } ∧
      checkDefaults chk k.props (mergedDefaults S0.classes mro d.defaults) = .ok () := by
  induction hS with
  | empty => simp at hk
  | @create S S' d hS hb hn hdn hc ih =>
    obtain ⟨k', mro, hS', hc3, hk'⟩ := create_ok hc
    by_cases hlt : i < S.classes.length
    · rw [hS', List.getElem?_append_left hlt] at hk
      obtain ⟨S0, d0, mro0, k0, h1, h2, h3⟩ := ih hk
      exact ⟨S0, d0, mro0, k0, h1, by rw [hS']; exact h2.trans (List.prefix_append _ _), h3⟩
    · have hl := getElem?_lt hk
      rw [hS', List.length_append, List.length_singleton] at hl
      have : i = S.classes.length := Nat.le_antisymm (Nat.le_of_lt_succ hl) (Nat.le_of_not_lt hlt)
      subst this
      have hkk : k' = k := by rw [hS'] at hk; simpa using hk
      subst hkk
      rcases hk' with ⟨-, ⟨k0, h0, he⟩, hd, -⟩ | ⟨-, hf, -⟩
      · exact ⟨S, d, mro, k0, hS, by rw [hS']; exact List.prefix_append _ _, rfl, hb, hn, hc3, h0,
          he, hd⟩
      · rw [hp] at hf; cases hf

theorem isPrivate_iff {n : PyStr} : isPrivate n = true ↔ Private n := by
  unfold isPrivate Private
  cases n with
  | nil => simp
  | cons a t => simp

theorem insertS_perm (x : PyStr) (l : List PyStr) : (insertS x l).Perm (x :: l) := by
  induction l with
  | nil => exact .refl _
  | cons y l ih =>
    unfold insertS
    split
    · exact .refl _
    · exact (ih.cons y).trans (.swap x y l)

theorem sorted_perm (l : List PyStr) : (sorted l).Perm l := by
  induction l with
  | nil => exact .refl _
  | cons x l ih => exact (insertS_perm x _).trans (ih.cons x)

theorem docOrderOf_perm {T : Table} {x : List PyStr} {d : Decl} {o : List PyStr}
    (h : docOrderOf T (sorted x) d = .ok o) : o.Perm x := by
  unfold docOrderOf at h
  split at h
  · cases h; exact sorted_perm _
  · cases h
  · rename_i l heq
    split at h
    · rename_i hs
      rw [← Except.ok.inj h]
      exact ((sorted_perm l).symm.trans (List.Perm.of_eq hs)).trans
        (sorted_perm _)
    · cases h

/-- A list split by four conditions of which exactly one holds for each element. -/
theorem perm_four {α : Type} (p q r s : α → Bool) (l : List α)
    (h : ∀ a ∈ l, (p a, q a, r a, s a) ∈ [(true, false, false, false), (false, true, false, false),
      (false, false, true, false), (false, false, false, true)]) :
    (l.filter p ++ l.filter q ++ l.filter r ++ l.filter s).Perm l := by
  induction l with
  | nil => simp
  | cons a l ih =>
    have ih := ih fun b hb => h b (List.mem_cons_of_mem _ hb)
    have ha := h a (by simp)
    simp only [List.mem_cons, Prod.mk.injEq, List.not_mem_nil, or_false] at ha
    rcases ha with ⟨h1, h2, h3, h4⟩ | ⟨h1, h2, h3, h4⟩ | ⟨h1, h2, h3, h4⟩ | ⟨h1, h2, h3, h4⟩ <;>
      simp only [List.filter_cons, h1, h2, h3, h4, if_true, Bool.false_eq_true, if_false]
    · exact ih.cons a
    · refine (List.Perm.trans ?_ (ih.cons a))
      simp only [List.append_assoc, List.cons_append]
      exact List.perm_middle
    · refine (List.Perm.trans ?_ (ih.cons a))
      rw [List.append_assoc (_ ++ _), List.append_assoc (_ ++ _) (List.filter r l), List.cons_append]
      exact List.perm_middle
    · exact List.perm_middle.trans (ih.cons a)

/-- What a class statement that succeeds documents. -/
theorem documents {T : Table} {d : Decl} {mro : List ClsId} {k : Class}
    (h : buildClass T d mro = .ok k) : ∃ priv, docPrivateOf T d = .flag priv ∧ Documents k priv := by
  obtain ⟨-, -, -, -, -, hprops, -, -, -, -, -, -, priv, hpriv, ho, h1, h2, h3, h4⟩ := buildClass_ok h
  refine ⟨priv, hpriv, ?_⟩
  have hnd : (k.props.map Prod.fst).Nodup := by rw [hprops]; exact nodup_build
  have hperm := docOrderOf_perm ho
  have hall : ∀ n, n ∈ k.order ↔ (∃ e, Recorded k n e) ∧ (Private n → priv = true) := by
    intro n
    rw [hperm.mem_iff, ← isPrivate_iff]
    have hm : n ∈ k.props.map Prod.fst ↔ ∃ e, Recorded k n e := by
      simp [Recorded, List.mem_map]
    cases priv with
    | true => simpa using hm
    | false => simp only [Bool.false_eq_true, if_false, List.mem_filter, hm]; simp
  have hreq : ∀ n e, Recorded k n e → lookupS n k.props = some e := fun n e he =>
    (lookupS_mem' hnd).2 he
  have hR : ∀ e b, Requires e b ↔ required? (some e) = some b := by
    intro e b
    unfold Requires
    cases e <;> simp [required?]
  refine ⟨?_, hall, ?_, ?_, ?_, ?_, ?_, ?_⟩
  · refine hperm.nodup_iff.2 ?_
    split
    · exact hnd
    · exact hnd.filter _
  · rw [h1, h2, h3, h4]
    refine perm_four _ _ _ _ _ fun n _ => ?_
    cases isPrivate n <;> rcases required? (lookupS n k.props) with _ | _ | _ <;> decide
  · rw [h1, h2, h3, h4]
    exact ⟨List.filter_sublist, List.filter_sublist, List.filter_sublist, List.filter_sublist⟩
  · intro n
    rw [h1, List.mem_filter, ← isPrivate_iff]
    refine and_congr_right fun hn => ?_
    obtain ⟨⟨e, he⟩, -⟩ := (hall n).1 hn
    have : (∃ e, Recorded k n e ∧ Requires e true) ↔ Requires e true :=
      ⟨fun ⟨e', h5, h6⟩ => by
        have := (hreq n e' h5).symm.trans (hreq n e he); cases this; exact h6,
       fun h5 => ⟨e, he, h5⟩⟩
    rw [this, hreq n e he, hR]
    rcases required? (some e) with _ | _ | _ <;> cases isPrivate n <;> simp
  · intro n
    rw [h2, List.mem_filter, ← isPrivate_iff]
    refine and_congr_right fun hn => ?_
    obtain ⟨⟨e, he⟩, -⟩ := (hall n).1 hn
    have : (∃ e, Recorded k n e ∧ Requires e false) ↔ Requires e false :=
      ⟨fun ⟨e', h5, h6⟩ => by
        have := (hreq n e' h5).symm.trans (hreq n e he); cases this; exact h6,
       fun h5 => ⟨e, he, h5⟩⟩
    rw [this, hreq n e he, hR]
    rcases required? (some e) with _ | _ | _ <;> cases isPrivate n <;> simp
  · intro n
    rw [h3, List.mem_filter, ← isPrivate_iff]
    refine and_congr_right fun hn => ?_
    obtain ⟨⟨e, he⟩, -⟩ := (hall n).1 hn
    have : (∃ e, Recorded k n e ∧ ∀ b, ¬ Requires e b) ↔ ∀ b, ¬ Requires e b :=
      ⟨fun ⟨e', h5, h6⟩ => by
        have := (hreq n e' h5).symm.trans (hreq n e he); cases this; exact h6,
       fun h5 => ⟨e, he, h5⟩⟩
    rw [this, hreq n e he]
    simp only [hR]
    rcases required? (some e) with _ | _ | _ <;> cases isPrivate n <;> simp
  · intro n
    rw [h4, List.mem_filter, isPrivate_iff]

/-- Every class with the metaclass, in every state that class statements can
produce, documents each of its properties once; its own `_doc_private` and
`_doc_order` decide whether private ones are included and in what order. -/
theorem C36_documented_once {chk : PyStr → Entry → Dflt → Option ErrKind} {S : State}
    (hS : Reachable chk S) {i : ClsId} {k : Class} (hk : S.classes[i]? = some k)
    (hp : k.hp = true) : ∃ priv, Documents k priv ∧
      (∀ f, k.docPrivate = some f → f = .flag priv) ∧
      (∀ l, k.docOrder = some (.names l) → k.order = l) := by
  obtain ⟨S0, d, mro, k0, -, -, -, -, -, -, hb, he, -⟩ := made_by hS hk hp
  obtain ⟨priv, h1, h2⟩ := documents hb
  obtain ⟨-, -, -, -, -, -, -, -, -, -, -, -, priv', h3, h4, -⟩ := buildClass_ok hb
  have hd : k0.docPrivate = d.docPrivate ∧ k0.docOrder = d.docOrder := by
    unfold buildClass at hb
    dsimp only at hb
    repeat' split at hb
    all_goals cases hb
    exact ⟨rfl, rfl⟩
  subst he
  refine ⟨priv, ⟨h2.once, h2.all, h2.partition, h2.inOrder, h2.required, h2.optional, h2.other,
    h2.private⟩, ?_, ?_⟩
  · intro f hf
    dsimp only at hf
    rw [hd.1] at hf
    unfold docPrivateOf at h1
    rw [hf] at h1
    exact h1
  · intro l hl
    dsimp only at hl ⊢
    rw [hd.2] at hl
    unfold docOrderOf at h4
    rw [hl, Option.getD_some] at h4
    dsimp only at h4
    generalize sorted l = a at h4
    generalize sorted _ = b at h4
    split at h4
    · exact (Except.ok.inj h4).symm
    · cases h4

theorem strLe_iff {s t : PyStr} : strLe s t = true ↔ Before s t := by
  induction s generalizing t with
  | nil => exact ⟨fun _ => .nil, fun _ => by unfold strLe; rfl⟩
  | cons a s ih =>
    cases t with
    | nil =>
      constructor
      · intro h; unfold strLe at h; cases h
      · intro h; cases h
    | cons b t =>
      unfold strLe
      simp only [Bool.or_eq_true, decide_eq_true_eq, Bool.and_eq_true, beq_iff_eq, ih]
      constructor
      · rintro (h | ⟨h, h'⟩)
        · exact .less h
        · have : a = b := Char.toNat_inj.1 h
          subst this; exact .same h'
      · intro h
        cases h with
        | less h => exact .inl h
        | same h => exact .inr ⟨rfl, h⟩

theorem before_trans {s t u : PyStr} (h1 : Before s t) (h2 : Before t u) : Before s u := by
  induction h1 generalizing u with
  | nil => exact .nil
  | less h =>
    cases h2 with
    | less h' => exact .less (Nat.lt_trans h h')
    | same h' => exact .less h
  | same h ih =>
    cases h2 with
    | less h' => exact .less h'
    | same h' => exact .same (ih h')

theorem before_total (s t : PyStr) : Before s t ∨ Before t s := by
  induction s generalizing t with
  | nil => exact .inl .nil
  | cons a s ih =>
    cases t with
    | nil => exact .inr .nil
    | cons b t =>
      rcases Nat.lt_trichotomy a.toNat b.toNat with h | h | h
      · exact .inl (.less h)
      · have : a = b := Char.toNat_inj.1 h
        subst this
        exact (ih t).imp .same .same
      · exact .inr (.less h)

theorem insertS_pairwise (x : PyStr) {l : List PyStr} (h : l.Pairwise Before) :
    (insertS x l).Pairwise Before := by
  induction h with
  | nil => simp [insertS]
  | @cons y l hy hl ih =>
    unfold insertS
    split
    · rename_i hx
      refine .cons (fun z hz => ?_) (.cons hy hl)
      rcases List.mem_cons.1 hz with rfl | hz
      · exact strLe_iff.1 hx
      · exact before_trans (strLe_iff.1 hx) (hy z hz)
    · rename_i hx
      refine .cons (fun z hz => ?_) ih
      rcases List.mem_cons.1 ((insertS_perm x l).subset hz) with rfl | hz
      · exact (before_total z y).resolve_left fun h => hx (strLe_iff.2 h)
      · exact hy z hz

theorem sorted_pairwise (l : List PyStr) : (sorted l).Pairwise Before := by
  induction l with
  | nil => exact .nil
  | cons x l ih => exact insertS_pairwise x ih

/-- Without any `_doc_order` the properties are documented alphabetically. -/
theorem C36_alphabetical {chk : PyStr → Entry → Dflt → Option ErrKind} {S : State}
    (hS : Reachable chk S) {i : ClsId} {k : Class} (hk : S.classes[i]? = some k)
    (hp : k.hp = true)
    (hno : ∀ c ∈ k.mro, ∀ kc, S.classes[c]? = some kc → kc.docOrder = none) :
    k.order.Pairwise Before := by
  obtain ⟨S0, d, mro, k0, hS0, hpre, hi, hbb, -, hc3, hb, he, -⟩ := made_by hS hk hp
  obtain ⟨-, hbase, hmro, -, -, -, -, -, -, -, -, -, priv', h3, h4, -⟩ := buildClass_ok hb
  have hI := reachable_inv hS
  have hI0 := reachable_inv hS0
  have hd : k0.docOrder = d.docOrder := by
    unfold buildClass at hb
    dsimp only at hb
    repeat' split at hb
    all_goals cases hb
    rfl
  have hkm : k.mro = i :: mro := by rw [he]; dsimp only; rw [hmro, hi]
  have hnone : d.docOrder = none := by
    have := hno i (by rw [hkm]; simp) k hk
    rw [he] at this
    dsimp only at this
    rw [← hd, this]
  obtain ⟨ext, hext⟩ := hpre
  have hb0 : ∀ b ∈ d.bases, S0.classes.attr (·.docOrder) (S0.classes.mro b) = none := by
    intro b hb
    unfold Table.attr
    refine List.findSome?_eq_none_iff.2 fun c hc => ?_
    have hck : c ∈ k.mro := by
      rw [hkm]; exact List.mem_cons_of_mem _ (((c3_spec hc3).1 b hb).subset hc)
    cases hkc : S0.classes[c]? with
    | none => rfl
    | some kc =>
      refine hno c hck kc ?_
      rw [← hext, List.getElem?_append_left (getElem?_lt hkc)]
      exact hkc
  have hinh : ∀ x, docOrderInherited S0.classes x d.bases = .absent := by
    intro x
    unfold docOrderInherited
    have : ∀ bs : List ClsId, (∀ b ∈ bs, b ∈ d.bases) → bs.foldl (fun acc b =>
        let o := match S0.classes.attr (·.docOrder) (S0.classes.mro b) with
          | some o => o
          | none => acc
        match o with
        | .names l => if sorted l = x then DocOrder.names l else .absent
        | _ => .absent) .absent = .absent := by
      intro bs
      induction bs with
      | nil => intro _; rfl
      | cons b bs ih =>
        intro hbs
        rw [List.foldl_cons, hb0 b (hbs b (by simp))]
        exact ih fun b hb => hbs b (List.mem_cons_of_mem _ hb)
    exact this _ fun b hb => List.mem_reverse.1 hb
  unfold docOrderOf at h4
  rw [hnone, Option.getD_none, hinh] at h4
  dsimp only at h4
  rw [he]
  dsimp only
  rw [← Except.ok.inj h4]
  exact sorted_pairwise _

/-- Four kinds of properties; the subclass documents private ones and gives an
order. -/
def c36Decls : List Decl :=
  [c35Root,
   c35Class (s% "A") [0]
    [(s% "z", c35Text), (s% "_p", c35Text),
     (s% "b", .prop (.mutable (.mk false none none .undef (.boolean false)))),
     (s% "a", .prop (.renamed (s% "b")))],
   { name := s% "B", bases := [1], docPrivate := some (.flag true),
     docOrder := some (.names [s% "b", s% "_p", s% "a", s% "z"]) },
   c35Class (s% "C") [2] [(s% "d", c35Text)]]

theorem C36_example : (runDecls c36Decls).map (fun S =>
      S.classes.map fun k => [k.order, k.secReq, k.secOpt, k.secImm, k.secPriv]) =
    some [[[], [], [], [], []],
      [[s% "a", s% "b", s% "z"], [s% "z"], [s% "b"], [s% "a"], []],
      [[s% "b", s% "_p", s% "a", s% "z"], [s% "z"], [s% "b"], [s% "a"], [s% "_p"]],
      [[s% "_p", s% "a", s% "b", s% "d", s% "z"], [s% "d", s% "z"], [s% "b"], [s% "a"], [s% "_p"]]] := by
  decide +kernel

end Verif.Cls
