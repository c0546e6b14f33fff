import Verif.Lemmas.Pickle
import Verif.Props.C28
import Verif.Props.C69
import Verif.Lemmas.Typed
import Verif.Lemmas.EqualTree

/-!
# C100: unpickled instances
-/

namespace Verif

open Spec

/-- The state after `pickle.loads(pickle.dumps(hp))`. -/
theorem repickle_objs (r : Nat) (w : World) (s : Nat) :
    ((repickle r w).2.objs[s]? = if s < w.objs.length then w.objs[s]? else
      (w.objs[s - w.objs.length]?).map (Obj.moved w.objs.length)) := by
  show (w.objs ++ w.objs.map (Obj.moved w.objs.length))[s]? = _
  split
  next h => rw [List.getElem?_append_left h]
  next h => rw [List.getElem?_append_right (Nat.le_of_not_lt h), List.getElem?_map]

theorem repickle_old {r : Nat} {w : World} {s : Nat} (h : s < w.objs.length) :
    (repickle r w).2.objs[s]? = w.objs[s]? := by rw [repickle_objs, if_pos h]

theorem repickle_new (r : Nat) (w : World) (s : Nat) :
    (repickle r w).2.objs[s + w.objs.length]? = (w.objs[s]?).map (Obj.moved w.objs.length) := by
  rw [repickle_objs, if_neg (by omega), Nat.add_sub_cancel]

theorem lookupS_moved (k : Nat) (nm : PyStr) : ∀ kvs : List (PyStr × Val),
    lookupS nm (kvs.map fun kv => (kv.1, kv.2.moved k)) = (lookupS nm kvs).map (Val.moved k)
  | [] => rfl
  | (a, b) :: kvs => by
      show lookupS nm ((a, b.moved k) :: kvs.map fun kv => (kv.1, kv.2.moved k)) = _
      unfold lookupS
      split
      · rfl
      · exact lookupS_moved k nm kvs

theorem readAs_moved (k : Nat) (o : Obj) (nm : PyStr) (e : Entry) :
    readAs (o.moved k) nm e = (readAs o nm e).moved k := by
  cases e <;> simp only [readAs, Obj.moved, lookupS_moved] <;>
  · cases lookupS _ o.backend
    · simp [Val.moved]
    · rfl

theorem moved_none {k : Nat} {v : Val} : v.moved k = .none ↔ v = .none := by
  cases v <;> simp [Val.moved]

/-- **C100** (faithful).  Pickling and unpickling succeed without any other effect: no
listener, no `_error_hook` and no default function is called.  The instances there were
stay as they are, and each of them has a twin among the new ones: of the same class, with
the same listeners and with equal values in which its own twin stands for an instance;
different instances have different twins.  So what was shared is shared among the new
instances in the same way, and a cycle is again a cycle. -/
theorem C100_faithful (r : Nat) (w : World) :
    ∃ f : Nat → Nat, (∀ s t, f s = f t → s = t) ∧ (∀ s, w.objs.length ≤ f s) ∧
      (repickle r w).1 = .ok (.obj (f r)) ∧
      (∀ s, s < w.objs.length → (repickle r w).2.objs[s]? = w.objs[s]?) ∧
      (∀ (s : Nat) (o : Obj), w.objs[s]? = some o → ∃ o', (repickle r w).2.objs[f s]? = some o' ∧ Twin f o o') ∧
      { (repickle r w).2 with objs := w.objs } = w := by
  refine ⟨(· + w.objs.length), fun s t h => by simpa using h, fun s => by simp, rfl, fun s h => repickle_old h,
    fun s o ho => ⟨o.moved w.objs.length, by rw [repickle_new, ho]; rfl, rfl, ?_, rfl, rfl, rfl, rfl⟩, rfl⟩
  show List.Forall₂ _ o.backend (o.backend.map _)
  generalize o.backend = b
  induction b with
  | nil => exact .nil
  | cons x xs ih => exact .cons ⟨rfl, alike_moved _ _⟩ ih

/-- **C100** (valid).  If all stored values are admitted by their properties, they still
are: the values of the new instances are, too. -/
theorem C100_well_typed {E : Env} (r : Nat) {w : World} (hw : WellTyped E w) :
    WellTyped E (repickle r w).2 := by
  have hold : ∀ s c, InstanceOf E w s c → InstanceOf E (repickle r w).2 s c := fun s c ⟨o, ho, h⟩ =>
    ⟨o, (repickle_old (List.getElem?_eq_some_iff.1 ho).1).trans ho, h⟩
  have hnew : ∀ s c, InstanceOf E w s c → InstanceOf E (repickle r w).2 (s + w.objs.length) c :=
    fun s c ⟨o, ho, h⟩ => ⟨o.moved w.objs.length, by rw [repickle_new, ho]; rfl, h⟩
  intro s o ho nm v hv
  rw [repickle_objs] at ho
  split at ho
  next hs =>
    obtain ⟨e, he, h⟩ := hw s o ho nm v hv
    have h2 : ∀ ty v, Admits E w ty v → Admits E (repickle r w).2 ty v := fun ty v h => by
      induction h with
      | inst c r h => exact .inst c r (hold r c h)
      | union ps s p v hp _ ih => exact .union ps s p v hp ih
      | tup item a b c xs _ ih => exact .tup item a b c xs ih
      | list item a b c xs _ ih => exact .list item a b c xs ih
      | set item a b c xs _ ih => exact .set item a b c xs ih
      | dict kp vp c kvs _ _ ihk ihv => exact .dict kp vp c kvs ihk ihv
      | any v => exact .any v
      | boolean c b => exact .boolean c b
      | integer c mn mx i h => exact .integer c mn mx i h
      | float c mn mx f h => exact .float c mn mx f h
      | complex c a b => exact .complex c a b
      | string cs m regex s t h1 h2 => exact .string cs m regex s t h1 h2
      | choice kvs c k vs h => exact .choice kvs c k vs h
      | color v h => exact .color v h
      | datetime t => exact .datetime t
      | uuid n => exact .uuid n
    refine ⟨e, he, ?_⟩
    cases e <;> first | exact h2 _ _ h | trivial
  next hs =>
    obtain ⟨o', ho', rfl⟩ := Option.map_eq_some_iff.1 ho
    obtain ⟨⟨nm', v'⟩, hv', he⟩ := List.mem_map.1 hv
    cases he
    obtain ⟨e, he, h⟩ := hw _ o' ho' nm' v' hv'
    refine ⟨e, he, ?_⟩
    cases e <;> first | exact admits_moved hnew h | trivial

theorem connected_new {r : Nat} {w : World} {s : Nat}
    (h : Connected (repickle r w).2 (· = r + w.objs.length) s) : w.objs.length ≤ s := by
  induction h with
  | start s h => omega
  | next s t _ h ih =>
    obtain ⟨o, nm, v, ho, hv, hr⟩ := h
    rw [repickle_objs, if_neg (by omega)] at ho
    obtain ⟨o', _, rfl⟩ := Option.map_eq_some_iff.1 ho
    obtain ⟨⟨nm', v'⟩, _, he⟩ := List.mem_map.1 hv
    cases he
    obtain ⟨t', rfl, _⟩ := refIn_moved hr
    omega

/-- **C100** (independent).  From the unpickled instance one gets to new instances only.
What a program does afterwards on these never changes the instances there were, and what
it does on those never changes the unpickled instance or what belongs to it. -/
theorem C100_independent {E : Env} (hE : NoGlobals E) (r : Nat) {w : World} (hw : NoDangling w) :
    ∃ r', (repickle r w).1 = .ok (.obj r') ∧
      (∀ s, Connected (repickle r w).2 (· = r') s → w.objs.length ≤ s) ∧
      ∀ (n : Nat) (p : Prog),
        (Confined (fun s => Connected (repickle r w).2 (· = r') s ∨ (repickle r w).2.objs.length ≤ s) p →
          ∀ s, s < w.objs.length → (runProg E n p (repickle r w).2).2.objs[s]? = w.objs[s]?) ∧
        (Confined (fun s => Connected (repickle r w).2 (· < w.objs.length) s ∨
            (repickle r w).2.objs.length ≤ s) p →
          ∀ s, s < (repickle r w).2.objs.length → Connected (repickle r w).2 (· = r') s →
            (runProg E n p (repickle r w).2).2.objs[s]? = (repickle r w).2.objs[s]?) :=
  ⟨r + w.objs.length, rfl, fun s h => connected_new h, fun n p =>
    C69_independent hE (fun s h => connected_new h) (fun s h => repickle_old h) hw n p⟩

theorem comparableEntry_same {E : Env} {P Q : Nat → Prop} {k : Nat} (hPQ : ∀ r, P r → Q (r + k)) {c : ClassDef}
    {v : Val} {e : Entry} (h : ComparableEntry E P c v e) : ComparableEntry E Q c (v.moved k) e := by
  cases e with
  | mutable p => exact fun hn => comparable_moved hPQ (h fun hv => hn (moved_none.2 hv))
  | gettable p => exact fun hn => comparable_moved hPQ (h fun hv => hn (moved_none.2 hv))
  | dynamic _ _ _ _ => exact h
  | renamed new => exact ⟨(hashable_moved k v).trans h.1, h.2⟩

/-- The rank of an unpickled instance is that of the original. -/
def rankBoth (k : Nat) (rk : Nat → Nat) (s : Nat) : Nat := if s < k then rk s else rk (s - k)

theorem repickle_comparable {E : Env} {rk : Nat → Nat} {w : World} (r : Nat) (hw : ComparableWorld E rk w) :
    ComparableWorld E (rankBoth w.objs.length rk) (repickle r w).2 := by
  intro s o ho nm e he
  rw [repickle_objs] at ho
  split at ho
  next hs =>
    have h := comparableEntry_same (k := 0)
      (Q := fun t => (∃ o', (repickle r w).2.objs[t]? = some o') ∧
        rankBoth w.objs.length rk t < rankBoth w.objs.length rk s) (fun t ht => by
        obtain ⟨⟨o', ho'⟩, hlt⟩ := ht
        have ht := (List.getElem?_eq_some_iff.1 ho').1
        refine ⟨⟨o', (repickle_old ht).trans ho'⟩, ?_⟩
        unfold rankBoth
        rw [if_pos hs, if_pos (by simpa using ht)]
        exact hlt) (hw s o ho nm e he)
    rwa [moved_zero] at h
  next hs =>
    obtain ⟨o', ho', rfl⟩ := Option.map_eq_some_iff.1 ho
    have h := comparableEntry_same (k := w.objs.length)
      (Q := fun t => (∃ o', (repickle r w).2.objs[t]? = some o') ∧
        rankBoth w.objs.length rk t < rankBoth w.objs.length rk s) (fun t ht => by
        obtain ⟨⟨o', ho'⟩, hlt⟩ := ht
        refine ⟨⟨o'.moved w.objs.length, by rw [repickle_new, ho']; rfl⟩, ?_⟩
        unfold rankBoth
        rw [if_neg hs, if_neg (by omega), Nat.add_sub_cancel]
        exact hlt) (hw _ o' ho' nm e he)
    rw [readAs_moved]
    exact h

theorem repickle_same {E : Env} {rk : Nat → Nat} {w : World} (r : Nat) (hw : ComparableWorld E rk w)
    (hs : ReEqualWorld E w) : ∀ (k i : Nat), rk i < k → (∃ o, w.objs[i]? = some o) →
      SameAt E (repickle r w).2 k i (i + w.objs.length)
  | 0, _, h, _ => by omega
  | k + 1, i, h, ⟨o, ho⟩ => by
    have hi := (List.getElem?_eq_some_iff.1 ho).1
    refine .inr ⟨o, o.moved w.objs.length, (repickle_old hi).trans ho, by rw [repickle_new, ho]; rfl, rfl,
      fun nm e he => ?_⟩
    have hc := hw i o ho nm e he
    have hself := hs i o ho nm e he
    rw [readAs_moved]
    by_cases hn : readAs o nm e = .none
    · exact .inl ⟨hn, moved_none.2 hn⟩
    refine .inr ⟨hn, fun h => hn (moved_none.1 h), ?_⟩
    have hself := hself hn
    have hO : ∀ p, ReEqual E p (readAs o nm e) →
        Comparable E (fun s => (∃ o', w.objs[s]? = some o') ∧ rk s < rk i) p (readAs o nm e) →
        ∀ s, RefIn s (readAs o nm e) → SameAt E (repickle r w).2 k s (s + w.objs.length) := fun p h1 h2 s hr =>
      have := refIn_comparable h1 h2 hr
      repickle_same r hw hs k s (by omega) this.1
    cases e with
    | mutable p => exact sameP_moved hself (hO p hself (hc hn))
    | gettable p => exact sameP_moved hself (hO p hself (hc hn))
    | dynamic _ _ _ _ => exact hself.elim
    | renamed new =>
      show pyEq _ (Val.moved _ _) = true
      rw [moved_noRef _ hself.1]
      exact hself.2

/-- **C100** (equal).  For instances whose values equal themselves as values of their
properties (no NaN), without cycles and without further names of properties that hold
instances, `properties.equal` finds the unpickled instance equal to the original. -/
theorem C100_equal {E : Env} (hl : LawfulEq E) {D : Nat} (hd : DistinctNames E)
    (hD : TypesWithin E D) (hx : AllSetsExact E) {rk : Nat → Nat} {w : World}
    (hw : ComparableWorld E rk w) (hm : NotComparing w) (hs : ReEqualWorld E w) {r : Nat}
    (hr : ∃ o, w.objs[r]? = some o) :
    ∃ r', (repickle r w).1 = .ok (.obj r') ∧ r ≠ r' ∧ ∀ n, 1 + (rk r + 1) * (D + 2) ≤ n →
      run E n (.equal (.obj r) (.obj r')) (repickle r w).2 = (.ok (.bool true), (repickle r w).2) := by
  obtain ⟨o, ho⟩ := hr
  have hi := (List.getElem?_eq_some_iff.1 ho).1
  have hm' : NotComparing (repickle r w).2 := fun s o ho => by
    rw [repickle_objs] at ho
    split at ho
    · exact hm s o ho
    · obtain ⟨o', ho', rfl⟩ := Option.map_eq_some_iff.1 ho
      exact hm _ o' ho'
  refine ⟨r + w.objs.length, rfl, by omega, fun n hn => ?_⟩
  obtain ⟨b, hb, hrun⟩ := C28_decides hl hd hD hx (repickle_comparable r hw) hm' (i := r)
    (j := r + w.objs.length) ⟨o, (repickle_old hi).trans ho⟩
    ⟨o.moved w.objs.length, by rw [repickle_new, ho]; rfl⟩
  have hbt : b = true := hb.2 ⟨rk r + 1, repickle_same r hw hs _ r (by omega) ⟨o, ho⟩⟩
  rw [hrun n (by unfold rankBoth; rw [if_pos hi]; exact hn), hbt]

/-- **C100** (read).  What is read from the unpickled instance is what is read from the
original, with the twins for the instances. -/
theorem C100_read {E : Env} (r : Nat) {w : World} {o : Obj} (ho : w.objs[r]? = some o) {nm : PyStr} {e : Entry}
    {p : PropSpec} (he : lookupS nm (E.classes o.cls).props = some e) (hp : OwnSpec e p) (n : Nat) :
    ∃ r' v v', (repickle r w).1 = .ok (.obj r') ∧ run E (n + 1) (.getattr r nm) w = (.ok v, w) ∧
      run E (n + 1) (.getattr r' nm) (repickle r w).2 = (.ok v', (repickle r w).2) ∧
      SameBut (· + w.objs.length) v v' := by
  have h' : (repickle r w).2.objs[r + w.objs.length]? = some (o.moved w.objs.length) := by
    rw [repickle_new, ho]; rfl
  refine ⟨_, _, _, rfl, getattr_own ho he hp, getattr_own h' he hp, ?_⟩
  have : valueAt (o.moved w.objs.length) nm = (valueAt o nm).moved w.objs.length :=
    readAs_moved _ o nm (.mutable p)
  rw [this]
  exact alike_moved _ _

/-! ## Examples -/

theorem c100_reEqual : ReEqualWorld c28Env c28World := by
  have hno : ∀ (x : Int) r, ¬ RefIn r (.int x) := fun x r h => nomatch h
  have hleaf : ∀ (o : Obj) (x : Int), o.backend = [(s% "n", .int x)] → pyEq (.int x) (.int x) = true →
      ∀ nm e, (nm, e) ∈ (c28Env.classes 0).props → readAs o nm e ≠ .none →
      match e with
      | .mutable p => ReEqual c28Env p (readAs o nm e)
      | .gettable p => ReEqual c28Env p (readAs o nm e)
      | .dynamic .. => False
      | .renamed _ => (∀ r, ¬ RefIn r (readAs o nm e)) ∧ pyEq (readAs o nm e) (readAs o nm e) = true := by
    rintro ⟨_, _, _, _, _, _, _⟩ x h hx nm e hm
    simp only at h
    subst h
    simp only [c28Env, List.mem_cons, Prod.mk.injEq, List.not_mem_nil, or_false] at hm
    rcases hm with ⟨rfl, rfl⟩ | ⟨rfl, rfl⟩ | ⟨rfl, rfl⟩ | ⟨rfl, rfl⟩
    · exact fun h => absurd rfl h
    · exact fun h => absurd rfl h
    · intro _; unfold ReEqual; exact ⟨hno x, congrArg (some ∘ Except.ok) hx⟩
    · exact fun _ => ⟨hno x, hx⟩
  have hset : ∀ i j : Nat, ReEqual c28Env (.mk false none none .undef
      (.seq .set (.mk false none none .undef (.inst 0)) none none false)) (.set [.obj i, .obj j]) := by
    intro i j
    unfold ReEqual
    refine ⟨_, rfl, fun x hx => ?_⟩
    unfold ReEqual
    simp only [List.mem_cons, List.not_mem_nil, or_false] at hx
    rcases hx with rfl | rfl
    · exact ⟨_, rfl⟩
    · exact ⟨_, rfl⟩
  have hdict : ∀ (a b : Int) (s t : PyStr), pyEq (.int a) (.int a) = true → pyEq (.int b) (.int b) = true →
      pyEq (.str s) (.str s) = true → pyEq (.str t) (.str t) = true → ReEqual c28Env (.mk false none none .undef
          (.dict (.mk false none none .undef (.integer false none none))
            (.mk false none none .undef (.string [] .keep none)) false))
        (.dict [(.int a, .str s), (.int b, .str t)]) := by
    intro a b s t ha hb hs ht
    unfold ReEqual
    refine ⟨_, rfl, fun kv hkv => ?_, fun kv hkv => ?_⟩ <;>
      simp only [List.mem_cons, List.not_mem_nil, or_false] at hkv
    · rcases hkv with rfl | rfl
      · exact ⟨hno a, ha⟩
      · exact ⟨hno b, hb⟩
    · rcases hkv with rfl | rfl <;> unfold ReEqual
      · exact ⟨(fun r h => nomatch h), congrArg (some ∘ Except.ok) hs⟩
      · exact ⟨(fun r h => nomatch h), congrArg (some ∘ Except.ok) ht⟩
  have hnode : ∀ (o : Obj) (v u : Val), o.backend = [(s% "s", v), (s% "d", u)] →
      ReEqual c28Env (.mk false none none .undef
        (.seq .set (.mk false none none .undef (.inst 0)) none none false)) v →
      ReEqual c28Env (.mk false none none .undef
          (.dict (.mk false none none .undef (.integer false none none))
            (.mk false none none .undef (.string [] .keep none)) false)) u →
      ∀ nm e, (nm, e) ∈ (c28Env.classes 0).props → readAs o nm e ≠ .none →
      match e with
      | .mutable p => ReEqual c28Env p (readAs o nm e)
      | .gettable p => ReEqual c28Env p (readAs o nm e)
      | .dynamic .. => False
      | .renamed _ => (∀ r, ¬ RefIn r (readAs o nm e)) ∧ pyEq (readAs o nm e) (readAs o nm e) = true := by
    rintro ⟨_, _, _, _, _, _, _⟩ v u h hv hu nm e hm
    simp only at h
    subst h
    simp only [c28Env, List.mem_cons, Prod.mk.injEq, List.not_mem_nil, or_false] at hm
    rcases hm with ⟨rfl, rfl⟩ | ⟨rfl, rfl⟩ | ⟨rfl, rfl⟩ | ⟨rfl, rfl⟩
    · exact fun _ => hv
    · exact fun _ => hu
    · exact fun h => absurd rfl h
    · exact fun h => absurd rfl h
  intro r o ho
  match r, ho with
  | 0, ho | 1, ho | 2, ho | 3, ho => cases ho; exact hleaf _ _ rfl (by with_unfolding_all rfl)
  | 4, ho | 5, ho =>
    cases ho
    exact hnode _ _ _ rfl (hset _ _) (hdict _ _ _ _ (by with_unfolding_all rfl) (by with_unfolding_all rfl)
      (by with_unfolding_all rfl) (by with_unfolding_all rfl))
  | n + 6, ho => cases ho

/-- The hypotheses of `C100_equal` are met by the instances of `C28_example`, which hold a
Set of instances and a Dictionary. -/
theorem C100_example : ∃ r', (repickle 4 c28World).1 = .ok (.obj r') ∧ 4 ≠ r' ∧ ∀ n, 9 ≤ n →
    run c28Env n (.equal (.obj 4) (.obj r')) (repickle 4 c28World).2 =
      (.ok (.bool true), (repickle 4 c28World).2) := by
  obtain ⟨hl, hd, hD, hx, hw, hm, -⟩ := C28_example
  exact C100_equal hl hd hD (fun c nm e hm p hp => setsExact_of_exact hx p (hx c nm e hm p hp)) hw hm
    c100_reEqual ⟨_, rfl⟩

/-- `a.p = a` is unpickled to an instance that refers to itself. -/
theorem C100_cycle : (repickle 0 c28Cycle).2.objs.map (·.backend) =
    [[(s% "p", .obj 0)], [(s% "p", .obj 0)], [(s% "p", .obj 2)], [(s% "p", .obj 2)]] := by
  with_unfolding_all rfl

/-- But it does not equal the original: comparing them, `equal` comes back to `a` and then
answers False, as its documentation says (base.py:627-631). -/
theorem C100_cycle_unequal (n : Nat) :
    (run c28Node (n + 5) (.equal (.obj 0) (.obj 2)) (repickle 0 c28Cycle).2).1 = .ok (.bool false) := by
  with_unfolding_all rfl

/-- `class Node` with a reference to a Node that has another name. -/
def c100Alias : Env :=
  { demoEnv with
    classes := fun _ => { (default : ClassDef) with
      props := [(s% "p", .mutable (.mk false none none .undef (.inst 0))), (s% "q", .renamed (s% "p"))] } }

/-- A Node with a Node. -/
def c100World : World := { objs := [{ cls := 0 }, { cls := 0, backend := [(s% "p", .obj 0)] }] }

/-- With another name for a property that holds an instance, the unpickled instance does
not equal the original: the values of the renamed property are compared with `==`. -/
theorem C100_alias_unequal (n : Nat) :
    (run c100Alias (n + 5) (.equal (.obj 1) (.obj 3)) (repickle 1 c100World).2).1 = .ok (.bool false) := by
  with_unfolding_all rfl

end Verif
