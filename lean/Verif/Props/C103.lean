import Verif.Lemmas.Access
import Verif.Lemmas.Answers
import Verif.Lemmas.Notify
import Verif.Lemmas.PureVal
import Verif.Lemmas.Steady
import Verif.Props.C16
import Verif.Spec.KeywordOrder

/-!
# C103: the order of keywords does not matter
-/

namespace Verif
open Spec Spec.Exc

variable {E : Env}

/-! ## One assignment during initialisation -/

/-- The result of assigning `v` when `prev` is stored, and what is stored by it. -/
def asgOut (E : Env) (j : Nat) (cls : Nat → Option ClsId) (r : Nat) (k : PyStr) (p : PropSpec)
    (v prev : Val) : Except PyErr Val × Option Val :=
  match pval E cls ⟨k, some r⟩ p v with
  | .error e => (.error e, none)
  | .ok v1 =>
      (if prev.isUndef || v1.isUndef then .ok .none
        else match (run E j (.propEqual p prev v1) {}).1 with
          | .ok _ => .ok .none
          | .error e => .error e, some v1)

/-- Storing. -/
def putOut (k : PyStr) (x : Option Val) (b : List (PyStr × Val)) : List (PyStr × Val) :=
  match x with
  | none => b
  | some v1 => if v1.isUndef then eraseS k b else setS k v1 b

theorem notify_no_listener {rec : Rec} {r : Nat} {mode : Mode} {k : PyStr} {prev v : Val} {w : World}
    {o : Obj} (ho : w.objs[r]? = some o) (hl : ∀ l ∈ o.listeners, l.name ≠ k) :
    notify E rec r mode k prev v w = (.ok v, w) := by
  have hf : o.listeners.filter (fun l => l.name == k && l.mode == mode) = [] := by
    rw [List.filter_eq_nil_iff]
    intro l hm
    simp [hl l hm]
  have hg : getObj r w = (.ok o, w) := by simp [getObj, ho]
  unfold notify
  rw [bind_ok hg, bind_ok (show M.get w = (.ok w, w) from rfl), hf]
  simp only [ite_self]
  rfl

theorem setattr_out {j r : Nat} {c : ClsId} {k : PyStr} {p : PropSpec} {v : Val} {w : World} {o : Obj}
    (ho : w.objs[r]? = some o) (hc : o.cls = c) (hg : o.gv = some true)
    (hl : ∀ l ∈ o.listeners, l.name ≠ k)
    (hp : lookupS k (E.classes c).props = some (.mutable p)) (hv : v ≠ .undef) (hs : Still p v)
    (hd : depth p ≤ j) (hi : ¬ Visits p) :
    run E (j + 1) (.setattr r k v) w =
      ((asgOut E j (clsAt w) r k p v ((lookupS k o.backend).getD .undef)).1,
        w.setObj r (fun q => { q with backend := (putOut k
          (asgOut E j (clsAt w) r k p v ((lookupS k o.backend).getD .undef)).2 q.backend) })) := by
  have hgo : getObj r w = (.ok o, w) := by simp [getObj, ho]
  have he : entryOf E r k w = (.ok (some (.mutable p)), w) := by
    unfold entryOf
    rw [bind_ok hgo, hc, hp]; rfl
  show setattrBody E (run E j) r k v w = _
  unfold setattrBody
  rw [bind_ok he]
  dsimp only
  have hu : v.isUndef = false := by cases v <;> first | rfl | exact absurd rfl hv
  have hm : Mute ⟨k, some r⟩ w := fun r' hr => by
    cases hr; exact ⟨o, ho, by rw [hg]; simp⟩
  have hval := run_pval (E := E) hd hs hm
  unfold assignBody
  simp only [hu]
  unfold asgOut
  cases hx : pval E (clsAt w) ⟨k, some r⟩ p v with
  | error e =>
    rw [hx] at hval
    refine (bind_err (by simpa using hval)).trans ?_
    rw [setObj_id ho]
    rfl
  | ok v1 =>
    rw [hx] at hval
    refine (bind_ok (a := v1) (w' := w) (by simpa using hval)).trans ?_
    dsimp only
    have key : setBody E (run E j) r k p v1 w =
        (match (if ((lookupS k o.backend).getD .undef).isUndef || v1.isUndef then .ok .none
          else match (run E j (.propEqual p ((lookupS k o.backend).getD .undef) v1) {}).1 with
            | .ok _ => .ok .none
            | .error e => .error e : Except PyErr Val) with
          | .ok _ => .ok ()
          | .error e => .error e,
          w.setObj r (fun o => { o with backend := putOut k (some v1) o.backend })) := by
      unfold setBody
      rw [bind_ok hgo]
      rw [bind_ok (notify_no_listener ho hl)]
      have hw1 : writeStored r k v1 w = (.ok (), w.setObj r (fun o => { o with
          backend := putOut k (some v1) o.backend })) := rfl
      rw [bind_ok hw1]
      generalize hww : w.setObj r (fun o => { o with backend := putOut k (some v1) o.backend }) = w1
      have ho1 : w1.objs[r]? = some { o with backend := putOut k (some v1) o.backend } := by
        rw [← hww]; simp [World.setObj, ho]
      have nn : ∀ (mode : Mode) (prev v : Val), notify E (run E j) r mode k prev v w1 = (.ok v, w1) :=
        fun mode prev v => notify_no_listener ho1 hl
      generalize (lookupS k o.backend).getD .undef = prev
      have fin : ∀ (b : Bool), ((do
          let v2 ← (if b then notify E (run E j) r .change k prev v1 else pure v1)
          let _ ← notify E (run E j) r .set k prev v2
          pure ()) : M Unit) w1 = (.ok (), w1) := by
        intro b
        have h1 : (if b = true then notify E (run E j) r .change k prev v1 else pure v1) w1
            = (.ok v1, w1) := by
          split
          · exact nn _ _ _
          · rfl
        rw [bind_ok h1, bind_ok (nn _ _ _)]; rfl
      by_cases hu1 : prev.isUndef = true ∧ v1.isUndef = true
      · simp only [hu1.1, hu1.2, Bool.and_self, if_true, Bool.or_self]
        exact (bind_ok (a := false) rfl).trans (fin false)
      · have hand : (prev.isUndef && v1.isUndef) = false := by
          cases hA : prev.isUndef <;> cases hB : v1.isUndef <;> simp_all
        simp only [hand]
        by_cases hor : (prev.isUndef || v1.isUndef) = true
        · simp only [hor, if_true]
          exact (bind_ok (a := true) rfl).trans (fin true)
        · simp only [hor]
          obtain ⟨y, hy⟩ := run_fixed (E := E) j p hi prev v1
          rw [hy {}]
          cases y with
          | error e =>
            simp only [Bool.false_eq_true, if_false]
            exact bind_err (bind_err (hy w1))
          | ok t =>
            simp only [Bool.false_eq_true, if_false]
            have hch : ((do
                let e ← run E j (.propEqual p prev v1)
                pure (!e.truthy)) : M Bool) w1 = (.ok (!t.truthy), w1) := bind_ok (hy w1)
            exact (bind_ok hch).trans (fin (!t.truthy))
    have hres : ∀ a, (if ((lookupS k o.backend).getD .undef).isUndef || v1.isUndef then .ok .none
          else match (run E j (.propEqual p ((lookupS k o.backend).getD .undef) v1) {}).1 with
            | .ok _ => .ok .none
            | .error e => .error e : Except PyErr Val) = .ok a → a = .none := by
      intro a ha
      split at ha
      · cases ha; rfl
      · split at ha <;> cases ha; rfl
    generalize (if ((lookupS k o.backend).getD .undef).isUndef || v1.isUndef then .ok .none
          else match (run E j (.propEqual p ((lookupS k o.backend).getD .undef) v1) {}).1 with
            | .ok _ => .ok .none
            | .error e => .error e : Except PyErr Val) = res at key hres ⊢
    cases res with
    | error e => exact bind_err key
    | ok a => rw [hres a rfl]; exact bind_ok key

/-! ## All keywords -/

/-- What assigning keyword `kv` gives, if `prev` are the values stored before. -/
def kwOut (E : Env) (j : Nat) (cls : Nat → Option ClsId) (r : Nat) (c : ClsId)
    (prev : PyStr → Option Val) (kv : PyStr × Val) : Except PyErr Val × Option Val :=
  match lookupS kv.1 (E.classes c).props with
  | some (.mutable p) => asgOut E j cls r kv.1 p kv.2 ((prev kv.1).getD .undef)
  | _ => (.ok .none, none)

/-- Everything stored by the keywords. -/
def putAll (out : PyStr × Val → Except PyErr Val × Option Val) (kw : List (PyStr × Val))
    (b : List (PyStr × Val)) : List (PyStr × Val) :=
  kw.foldl (fun b kv => putOut kv.1 (out kv).2 b) b

/-- Keywords that name distinct properties which hold no instances, with values
whose validation builds nothing. -/
structure PlainKeywords (E : Env) (j : Nat) (c : ClsId) (kw : List (PyStr × Val)) : Prop where
  nodup : (kw.map Prod.fst).Nodup
  cls : ∀ kv ∈ kw, kv.1 ≠ s% "cls"
  self : ∀ kv ∈ kw, kv.1 ≠ s% "self"
  plain : ∀ kv ∈ kw, kv.2 ≠ .undef ∧ ∃ p, lookupS kv.1 (E.classes c).props = some (.mutable p) ∧
    Still p kv.2 ∧ depth p ≤ j ∧ ¬ Visits p

theorem PlainKeywords.tail {j : Nat} {c : ClsId} {kv : PyStr × Val} {kw : List (PyStr × Val)}
    (h : PlainKeywords E j c (kv :: kw)) : PlainKeywords E j c kw :=
  ⟨(List.nodup_cons.1 h.nodup).2, fun x hx => h.cls x (by simp [hx]),
    fun x hx => h.self x (by simp [hx]), fun x hx => h.plain x (by simp [hx])⟩

theorem PlainKeywords.perm {j : Nat} {c : ClsId} {kw kw' : List (PyStr × Val)} (hp : kw.Perm kw')
    (h : PlainKeywords E j c kw) : PlainKeywords E j c kw' :=
  ⟨(hp.map Prod.fst).nodup_iff.1 h.nodup, fun x hx => h.cls x (hp.mem_iff.2 hx),
    fun x hx => h.self x (hp.mem_iff.2 hx), fun x hx => h.plain x (hp.mem_iff.2 hx)⟩

theorem lookup_putOut_ne {k k' : PyStr} (h : k' ≠ k) (x : Option Val) (b : List (PyStr × Val)) :
    lookupS k' (putOut k x b) = lookupS k' b := by
  cases x with
  | none => rfl
  | some v =>
    simp only [putOut]
    split
    · exact lookupS_eraseS_ne h b
    · exact lookupS_setS_ne h v b

theorem lookup_putOut {k : PyStr} (x : Option Val) {b b' : List (PyStr × Val)}
    (h : lookupS k b = lookupS k b') : lookupS k (putOut k x b) = lookupS k (putOut k x b') := by
  cases x with
  | none => exact h
  | some v =>
    simp only [putOut]
    split
    · rw [lookupS_eraseS, lookupS_eraseS]
    · rw [lookupS_setS, lookupS_setS]

theorem lookup_putAll_congr {out : PyStr × Val → Except PyErr Val × Option Val} :
    ∀ (kw : List (PyStr × Val)) {b b' : List (PyStr × Val)},
    (∀ k, lookupS k b = lookupS k b') → ∀ k, lookupS k (putAll out kw b) = lookupS k (putAll out kw b')
  | [], _, _, h => h
  | kv :: kw, b, b', h => lookup_putAll_congr (out := out) kw
      (b := putOut kv.1 (out kv).2 b) (b' := putOut kv.1 (out kv).2 b') fun k => by
        by_cases hk : k = kv.1
        · subst hk; exact lookup_putOut _ (h _)
        · rw [lookup_putOut_ne hk, lookup_putOut_ne hk, h]

theorem lookup_putAll_perm {out : PyStr × Val → Except PyErr Val × Option Val}
    {kw kw' : List (PyStr × Val)} (hp : kw.Perm kw') (hn : (kw.map Prod.fst).Nodup) :
    ∀ (b : List (PyStr × Val)) k, lookupS k (putAll out kw b) = lookupS k (putAll out kw' b) := by
  induction hp with
  | nil => exact fun _ _ => rfl
  | cons kv _ ih => exact fun b k => ih (List.nodup_cons.1 hn).2 _ k
  | swap a b l =>
    intro s k
    refine lookup_putAll_congr (out := out) l
      (b := putOut a.1 (out a).2 (putOut b.1 (out b).2 s))
      (b' := putOut b.1 (out b).2 (putOut a.1 (out a).2 s)) (fun k => ?_) k
    have hne : a.1 ≠ b.1 := by
      simp only [List.map_cons, List.nodup_cons, List.mem_cons, not_or] at hn
      exact fun h => hn.1.1 h.symm
    by_cases ha : k = a.1
    · subst ha
      rw [lookup_putOut_ne hne]
      exact lookup_putOut _ (lookup_putOut_ne hne _ _)
    · by_cases hb : k = b.1
      · subst hb
        rw [lookup_putOut_ne ha]
        exact lookup_putOut _ (lookup_putOut_ne ha _ _).symm
      · rw [lookup_putOut_ne ha, lookup_putOut_ne hb, lookup_putOut_ne hb, lookup_putOut_ne ha]
  | trans h1 _ ih1 ih2 =>
    exact fun b k => (ih1 hn b k).trans (ih2 ((h1.map Prod.fst).nodup_iff.1 hn) b k)

theorem clsAt_setObj {w : World} {r : Nat} {f : Obj → Obj} (hf : ∀ o, (f o).cls = o.cls) :
    clsAt (w.setObj r f) = clsAt w := by
  funext i
  unfold clsAt World.setObj
  simp only [List.getElem?_modify]
  cases w.objs[i]? with
  | none => rfl
  | some o => by_cases h : r = i <;> simp [h, hf]

theorem kwOut_congr {j r : Nat} {cls : Nat → Option ClsId} {c : ClsId} {f g : PyStr → Option Val}
    {kv : PyStr × Val} (h : f kv.1 = g kv.1) : kwOut E j cls r c f kv = kwOut E j cls r c g kv := by
  unfold kwOut; rw [h]

theorem putAll_congr {f g : PyStr × Val → Except PyErr Val × Option Val} :
    ∀ (kw : List (PyStr × Val)), (∀ kv ∈ kw, f kv = g kv) → ∀ b, putAll f kw b = putAll g kw b
  | [], _, _ => rfl
  | kv :: kw, h, b => by
      show putAll f kw (putOut kv.1 (f kv).2 b) = putAll g kw (putOut kv.1 (g kv).2 b)
      rw [h kv (by simp)]
      exact putAll_congr kw (fun x hx => h x (by simp [hx])) _

/-- The assignments of the keywords, one after the other. -/
theorem tries_out {j r : Nat} {c : ClsId} : ∀ {kw : List (PyStr × Val)} {w w2 : World}
    {xs : List (Except PyErr Val)} {stop : Option PyErr} {o : Obj},
    Tries E (j + 1) r (E.classes c) kw w xs stop w2 → PlainKeywords E j c kw →
    w.objs[r]? = some o → o.cls = c → o.gv = some true →
    (∀ l ∈ o.listeners, ∀ kv ∈ kw, l.name ≠ kv.1) →
    ∀ out, (∀ kv ∈ kw, kwOut E j (clsAt w) r c (fun k => lookupS k o.backend) kv = out kv) →
    (stop = none → xs = kw.map (fun kv => (out kv).1) ∧
      (∀ kv ∈ kw, ∀ e, (out kv).1 = .error e → e.kind.isGeneric = true) ∧
      w2 = w.setObj r (fun q => { q with backend := putAll out kw q.backend, errs := q.errs.map (· ++ kw.flatMap (fun kv => tuplesOf (out kv).1)) })) ∧
    (∀ e, stop = some e → ∃ kv ∈ kw, (out kv).1 = .error e ∧ e.kind.isGeneric = false) := by
  intro kw
  induction kw with
  | nil =>
    intro w w2 xs stop o ht _ ho _ _ _ out _
    cases ht
    refine ⟨fun _ => ⟨rfl, fun _ h => (by cases h), ?_⟩, fun _ h => (by cases h)⟩
    rw [setObj_id ho]
    simp [putAll]
  | cons kv kw ih =>
    intro w w2 xs stop o ht hk ho hc hg hl out hout
    obtain ⟨hv, p, hp, hs, hd, hi⟩ := hk.plain kv (by simp)
    have hrun := setattr_out (E := E) ho hc hg (fun l h => hl l h kv (by simp)) hp hv hs hd hi
    have h0 : asgOut E j (clsAt w) r kv.1 p kv.2 ((lookupS kv.1 o.backend).getD .undef) = out kv := by
      rw [← hout kv (by simp)]; unfold kwOut; rw [hp]
    rw [h0] at hrun
    cases ht with
    | refused k v rest w hna => exact absurd (.inl ⟨_, hp, fun _ _ _ _ h => (by cases h)⟩) hna
    | broken k v rest w w1 e _ hx hne =>
      rw [hrun] at hx
      refine ⟨fun h => (by cases h), fun e' h => ?_⟩
      cases h
      exact ⟨_, by simp, (Prod.mk.inj hx).1, hne⟩
    | tried k v rest w w1 w2 x xs stop _ hx hgen ht =>
      rw [hrun] at hx
      obtain ⟨hx1, hx2⟩ := Prod.mk.inj hx
      have hxx : x = (out (k, v)).1 := hx1.symm
      subst hxx
      have hnd := (List.nodup_cons.1 hk.nodup).1
      have hne : ∀ kv' ∈ kw, kv'.1 ≠ k := fun kv' h' he => hnd (by
        rw [← show kv'.1 = (k, v).1 from he]; exact List.mem_map_of_mem h')
      have hw1 : noted r (tuplesOf (out (k, v)).1) w1 = w.setObj r (fun q => { q with backend := putOut k (out (k, v)).2 q.backend, errs := q.errs.map (· ++ tuplesOf (out (k, v)).1) }) := by
        rw [← hx2]; unfold noted; rw [setObj_setObj]
      rw [hw1] at ht
      have ho1 : (w.setObj r (fun q => { q with backend := putOut k (out (k, v)).2 q.backend, errs := q.errs.map (· ++ tuplesOf (out (k, v)).1) })).objs[r]? =
          some { o with backend := putOut k (out (k, v)).2 o.backend, errs := o.errs.map (· ++ tuplesOf (out (k, v)).1) } := by
        simp [World.setObj, ho]
      obtain ⟨i1, i2⟩ := ih ht hk.tail ho1 hc hg (fun l h kv' h' => hl l h kv' (by simp [h'])) out (by
        intro kv' h'
        have hcl : clsAt (w.setObj r (fun q => { q with backend := putOut k (out (k, v)).2 q.backend, errs := q.errs.map (· ++ tuplesOf (out (k, v)).1) })) = clsAt w :=
          clsAt_setObj (fun _ => rfl)
        rw [← hout kv' (by simp [h']), hcl]
        exact kwOut_congr (lookup_putOut_ne (hne kv' h') _ _))
      refine ⟨fun hst => ?_, fun e he => ?_⟩
      · obtain ⟨g1, g2, g3⟩ := i1 hst
        refine ⟨by rw [g1]; rfl, fun kv' h' => ?_, ?_⟩
        · rcases List.mem_cons.1 h' with rfl | h'
          · exact hgen
          · exact g2 kv' h'
        · rw [g3, setObj_setObj]
          congr 1
          funext q
          simp only [Obj.mk.injEq, true_and, and_true]
          refine ⟨rfl, ?_⟩
          cases q.errs with
          | none => rfl
          | some es => simp [List.append_assoc]
      · obtain ⟨kv', h', g⟩ := i2 e he
        exact ⟨kv', by simp [h'], g⟩

theorem firstOther_absent {α : Type} : ∀ {xs : List (Except PyErr α)}, firstOther xs = none ↔
    ∀ x ∈ xs, ∀ e, x = .error e → e.kind = .validation
  | [] => by simp [firstOther]
  | .ok a :: xs => by
      simp only [firstOther, firstOther_absent (xs := xs), List.mem_cons, forall_eq_or_imp]
      exact ⟨fun h => ⟨fun _ h' => (by cases h'), h⟩, fun h => h.2⟩
  | .error e :: xs => by
      by_cases hk : e.kind = .validation
      · simp only [firstOther, hk, if_true, firstOther_absent (xs := xs), List.mem_cons, forall_eq_or_imp]
        exact ⟨fun h => ⟨fun _ h' => (by cases h'; exact hk), h⟩, fun h => h.2⟩
      · simp only [firstOther, hk, if_false, List.mem_cons, forall_eq_or_imp]
        exact ⟨fun h => (by cases h), fun h => absurd (h.1 e rfl) hk⟩

theorem firstOther_kind {α : Type} : ∀ {xs : List (Except PyErr α)} {e : PyErr},
    firstOther xs = some e → e.kind ≠ .validation
  | [], _, h => by cases h
  | .ok a :: xs, e, h => firstOther_kind (xs := xs) h
  | .error e' :: xs, e, h => by
      by_cases hk : e'.kind = .validation
      · simp only [firstOther, hk, if_true] at h; exact firstOther_kind h
      · simp only [firstOther, hk, if_false] at h; cases h; exact hk

/-- What construction with plain keywords comes to. -/
theorem construct_out (hE : ∀ f args, Indirect (E.fn f args)) {j : Nat} {c : ClsId}
    (hh : (E.classes c).hook = none) {w w0 : World} {v0 : Val}
    (h0 : run E (j + 2) (.construct c []) w = (.ok v0, w0)) {o : Obj}
    (ho : w0.objs[w.objs.length]? = some o) {kw : List (PyStr × Val)}
    (hk : PlainKeywords E j c kw) (hl : ∀ l ∈ o.listeners, ∀ kv ∈ kw, l.name ≠ kv.1)
    {out : PyStr × Val → Except PyErr Val × Option Val}
    (hout : ∀ kv, kwOut E j (clsAt w0) w.objs.length c (fun k => lookupS k o.backend) kv = out kv) :
    v0 = .obj w.objs.length ∧
    ((∃ kv ∈ kw, ∃ e w2, (out kv).1 = .error e ∧ e.kind.isGeneric = false ∧
        run E (j + 2) (.construct c kw) w = (.error e, w2)) ∨
      (∀ kv ∈ kw, ∀ e, (out kv).1 = .error e → e.kind.isGeneric = true) ∧
      ((kw.flatMap (fun kv => tuplesOf (out kv).1) ≠ [] ∧ ∃ w2, run E (j + 2) (.construct c kw) w =
          (.error ⟨.validation, kw.flatMap (fun kv => tuplesOf (out kv).1)⟩, w2)) ∨
        kw.flatMap (fun kv => tuplesOf (out kv).1) = [] ∧
        ((∃ kv ∈ kw, ∃ e, (out kv).1 = .error e ∧ e.kind ≠ .validation) ∧
          (∃ e w2, e.kind ≠ .validation ∧ run E (j + 2) (.construct c kw) w = (.error e, w2)) ∨
        (∀ kv ∈ kw, ∀ e, (out kv).1 = .error e → e.kind = .validation) ∧
          run E (j + 2) (.construct c kw) w = (.ok (.obj w.objs.length),
            w0.setObj w.objs.length (fun q => { q with backend := putAll out kw q.backend, gv := some false, errs := none }))))) := by
  obtain ⟨hv, ⟨o', ho', hc, _⟩, _⟩ := construct_keywords h0 kw hk.cls hk.self
  rw [ho] at ho'; cases ho'
  obtain ⟨r, xs, stop, w2, hr, ht, hs, hn⟩ := C16_construct hE hh h0 kw hk.cls hk.self
  rw [hv] at hr; cases hr
  refine ⟨hv, ?_⟩
  have hb : (begun w.objs.length w0).objs[w.objs.length]? =
      some { o with gv := some true, errs := some [] } := by simp [begun, World.setObj, ho]
  have hcl : clsAt (begun w.objs.length w0) = clsAt w0 := clsAt_setObj (fun _ => rfl)
  obtain ⟨t1, t2⟩ := tries_out ht hk hb hc rfl hl out (fun kv _ => by rw [hcl]; exact hout kv)
  cases stop with
  | some e =>
    obtain ⟨kv, hm, g1, g2⟩ := t2 e rfl
    exact .inl ⟨kv, hm, e, _, g1, g2, hs e rfl⟩
  | none =>
    obtain ⟨g1, g2, g3⟩ := t1 rfl
    obtain ⟨_, n1, n2, n3⟩ := hn rfl
    have hfm : xs.flatMap tuplesOf = kw.flatMap (fun kv => tuplesOf (out kv).1) := by
      rw [g1, List.flatMap_map]
    rw [hfm] at n1 n2 n3
    refine .inr ⟨g2, ?_⟩
    by_cases hf : kw.flatMap (fun kv => tuplesOf (out kv).1) = []
    · refine .inr ⟨hf, ?_⟩
      cases hfo : firstOther xs with
      | some e =>
        refine .inl ⟨?_, e, _, firstOther_kind hfo, n2 hf e hfo⟩
        by_contra hno
        have : firstOther xs = none := by
          rw [firstOther_absent]
          intro x hx e' he
          by_contra hne
          rw [g1] at hx
          obtain ⟨kv, hm, rfl⟩ := List.mem_map.1 hx
          exact hno ⟨kv, hm, e', he, hne⟩
        rw [this] at hfo; cases hfo
      | none =>
        refine .inr ⟨fun kv hm e he => ?_, ?_⟩
        · exact firstOther_absent.1 hfo _ (by rw [g1]; exact List.mem_map_of_mem hm) e he
        · rw [n3 hf hfo, g3]
          unfold begun clearValidating
          rw [setObj_setObj, setObj_setObj]
    · exact .inl ⟨hf, _, n1 hf⟩

/-- C103: keywords that name distinct properties, without listeners for these,
may be given in any order.  If one order builds an instance, so does the other,
and the instances have the same values and everything else is the same; if one
order fails, so does the other, and if it fails with a ValidationError, so does
the other, reporting the same. -/
theorem C103_order (hE : ∀ f args, Indirect (E.fn f args)) {j : Nat} {c : ClsId}
    (hh : (E.classes c).hook = none) {w w0 : World} {v0 : Val}
    (h0 : run E (j + 2) (.construct c []) w = (.ok v0, w0)) {kw kw' : List (PyStr × Val)}
    (hp : kw.Perm kw') (hk : PlainKeywords E j c kw)
    (hl : ∀ o, w0.objs[w.objs.length]? = some o → ∀ l ∈ o.listeners, ∀ kv ∈ kw, l.name ≠ kv.1) :
    (∀ x w1, run E (j + 2) (.construct c kw) w = (.ok x, w1) →
      ∃ w2, run E (j + 2) (.construct c kw') w = (.ok x, w2) ∧ SameValues w.objs.length w1 w2) ∧
    (∀ e w1, run E (j + 2) (.construct c kw) w = (.error e, w1) →
      ∃ e' w2, run E (j + 2) (.construct c kw') w = (.error e', w2) ∧
        (e.kind = .validation → e'.kind = .validation ∧ e.tuples.Perm e'.tuples)) := by
  obtain ⟨_, ⟨o, ho, hc, _⟩, _⟩ := construct_keywords h0 kw hk.cls hk.self
  have hl1 := hl o ho
  have hl2 : ∀ l ∈ o.listeners, ∀ kv ∈ kw', l.name ≠ kv.1 := fun l h kv hm =>
    hl1 l h kv (hp.mem_iff.2 hm)
  have A := (construct_out hE hh h0 ho hk hl1 (fun _ => rfl)).2
  have B := (construct_out hE hh h0 ho (hk.perm hp) hl2 (fun _ => rfl)).2
  generalize hout : kwOut E j (clsAt w0) w.objs.length c (fun k => lookupS k o.backend) = out at A B
  have hpt : (kw.flatMap (fun kv => tuplesOf (out kv).1)).Perm
      (kw'.flatMap (fun kv => tuplesOf (out kv).1)) := hp.flatMap_right _
  have hgv : ∀ e : PyErr, e.kind.isGeneric = false → e.kind ≠ .validation := fun e h hv => by
    rw [hv] at h; cases h
  rcases A with ⟨kv, hm, e, w1, a1, a2, a3⟩ | ⟨ag, ⟨af, w1, a3⟩ | ⟨af, ⟨⟨kv, hm, e, a1, a2⟩, e1, w1, a4, a3⟩ | ⟨a1, a3⟩⟩⟩
  · refine ⟨fun x w' h => (by rw [a3] at h; cases h), fun e' w' h => ?_⟩
    rw [a3] at h
    cases h
    rcases B with ⟨_, _, e', w2, _, _, b3⟩ | ⟨bg, _⟩
    · exact ⟨e', w2, b3, fun hv => absurd hv (hgv e a2)⟩
    · have := bg kv (hp.mem_iff.1 hm) e a1
      rw [a2] at this; cases this
  · refine ⟨fun x w' h => (by rw [a3] at h; cases h), fun e' w' h => ?_⟩
    rw [a3] at h
    cases h
    rcases B with ⟨kv, hm, e, w2, b1, b2, _⟩ | ⟨_, ⟨_, w2, b3⟩ | ⟨bf, _⟩⟩
    · have := ag kv (hp.mem_iff.2 hm) e b1
      rw [b2] at this; cases this
    · exact ⟨_, w2, b3, fun _ => ⟨rfl, hpt⟩⟩
    · rw [bf] at hpt; exact absurd hpt.eq_nil af
  · refine ⟨fun x w' h => (by rw [a3] at h; cases h), fun e' w' h => ?_⟩
    rw [a3] at h
    cases h
    rcases B with ⟨kv, hm, e, w2, b1, b2, _⟩ | ⟨_, ⟨bf, w2, b3⟩ | ⟨_, ⟨_, e2, w2, _, b3⟩ | ⟨b1, _⟩⟩⟩
    · have := ag kv (hp.mem_iff.2 hm) e b1
      rw [b2] at this; cases this
    · rw [af] at hpt; exact absurd hpt.symm.eq_nil bf
    · exact ⟨_, w2, b3, fun hv => absurd hv a4⟩
    · exact absurd (b1 kv (hp.mem_iff.1 hm) e a1) a2
  · refine ⟨fun x w' h => ?_, fun e' w' h => (by rw [a3] at h; cases h)⟩
    rw [a3] at h
    cases h
    rcases B with ⟨kv, hm, e, w2, b1, b2, _⟩ | ⟨_, ⟨bf, w2, b3⟩ | ⟨_, ⟨⟨kv, hm, e, b1, b2⟩, _⟩ | ⟨_, b3⟩⟩⟩
    · have := ag kv (hp.mem_iff.2 hm) e b1
      rw [b2] at this; cases this
    · rw [af] at hpt; exact absurd hpt.symm.eq_nil bf
    · exact absurd (a1 kv (hp.mem_iff.2 hm) e b1) b2
    · refine ⟨_, b3, ⟨fun _ => putAll out kw' o.backend, ?_⟩, { o with backend := putAll out kw o.backend, gv := some false, errs := none }, { o with backend := putAll out kw' o.backend, gv := some false, errs := none }, ?_, ?_, lookup_putAll_perm (out := out) hp hk.nodup o.backend⟩
      · rw [setObj_setObj]
        unfold World.setObj
        simp only [World.mk.injEq, and_true]
        apply List.ext_getElem?
        intro i
        simp only [List.getElem?_modify]
        by_cases hi : w.objs.length = i
        · subst hi; simp [ho]
        · simp [hi]
      · simp [World.setObj, ho]
      · simp [World.setObj, ho]

/-- Instances with the same values read the same. -/
theorem C103_reads {r m : Nat} {w1 w2 : World} (h : SameValues r w1 w2) {o : Obj} {k : PyStr}
    (ho : w1.objs[r]? = some o) {p : PropSpec}
    (hp : lookupS k (E.classes o.cls).props = some (.mutable p) ∨
      lookupS k (E.classes o.cls).props = some (.gettable p)) :
    (run E (m + 1) (.getattr r k) w2).1 = (run E (m + 1) (.getattr r k) w1).1 := by
  obtain ⟨⟨f, hf⟩, o1, o2, h1, h2, hv⟩ := h
  rw [ho] at h1; cases h1
  have hc : o2.cls = o.cls := by
    rw [hf] at h2
    simp only [World.setObj, List.getElem?_modify, ho, if_true, Option.map_eq_map, Option.map_some, Option.some.injEq] at h2
    rw [← h2]
  show (getattrBody E (run E m) r k w2).1 = (getattrBody E (run E m) r k w1).1
  rcases hp with hp | hp
  · rw [getattr_mutable ho hp, getattr_mutable h2 (hc ▸ hp), hv k]
  · rw [getattr_gettable ho hp, getattr_gettable h2 (hc ▸ hp), hv k]

/-! ## Two numbers with defaults; the same with an observer -/

def ordA : PropSpec := .mk true none none (.val (.int 1)) (.integer false none none)
def ordB : PropSpec := .mk true none none (.val (.int 2)) (.float false none none)

/-- Class 1 resets `b` whenever `a` changes. -/
def ordEnv : Env := { demoEnv with
  classes := fun c => { (default : ClassDef) with
    props := [(s% "a", .mutable ordA), (s% "b", .mutable ordB)]
    observers := if c = 1 then [⟨.names [s% "a"], .change, 0⟩] else [] }
  fn := fun _ args => match args with
    | .obj r :: _ => .call (.setattr r (s% "b") (.int 0)) fun _ => .ret .none
    | _ => .ret .none }

def ordKw : List (PyStr × Val) := [(s% "a", .int 3), (s% "b", .int 4)]
def ordKw' : List (PyStr × Val) := [(s% "b", .int 4), (s% "a", .int 3)]

/-- The hypotheses hold for class 0, and both orders store the same values. -/
theorem C103_example : (∀ f args, Indirect (ordEnv.fn f args)) ∧ (ordEnv.classes 0).hook = none ∧
    ordKw.Perm ordKw' ∧ PlainKeywords ordEnv 6 0 ordKw ∧
    (run ordEnv 8 (.construct 0 []) {}).1 = .ok (.obj 0) ∧
    ((run ordEnv 8 (.construct 0 []) {}).2.objs.map Obj.listeners) = [[]] ∧
    (run ordEnv 8 (.construct 0 ordKw) {}).2.objs.map Obj.backend =
      [[(s% "a", .int 3), (s% "b", .float (.fin 4))]] ∧
    (run ordEnv 8 (.construct 0 ordKw') {}).2.objs.map Obj.backend =
      [[(s% "a", .int 3), (s% "b", .float (.fin 4))]] := by
  refine ⟨?_, rfl, List.Perm.swap _ _ _, ⟨by decide, by decide, by decide, ?_⟩, ?_, ?_, ?_, ?_⟩
  · intro f args
    show Indirect (match args with
      | .obj r :: _ => .call (.setattr r (s% "b") (.int 0)) fun _ => .ret .none
      | _ => .ret .none)
    split
    · exact fun _ => trivial
    · trivial
  · intro kv hm
    simp only [ordKw, List.mem_cons, List.not_mem_nil, or_false] at hm
    rcases hm with rfl | rfl
    · exact ⟨by simp, ordA, rfl, trivial, by decide, by
        rintro (h | ⟨h, _⟩ | ⟨h, _⟩ | ⟨h, _, _⟩) <;> cases h⟩
    · exact ⟨by simp, ordB, rfl, trivial, by decide, by
        rintro (h | ⟨h, _⟩ | ⟨h, _⟩ | ⟨h, _, _⟩) <;> cases h⟩
  all_goals with_unfolding_all rfl

/-- Without the condition on listeners the order matters. -/
theorem C103_listeners_matter :
    (run ordEnv 8 (.construct 1 ordKw) {}).2.objs.map Obj.backend =
      [[(s% "a", .int 3), (s% "b", .float (.fin 4))]] ∧
    (run ordEnv 8 (.construct 1 ordKw') {}).2.objs.map Obj.backend =
      [[(s% "a", .int 3), (s% "b", .float (.fin 0))]] := by
  refine ⟨?_, ?_⟩ <;> with_unfolding_all rfl

end Verif
