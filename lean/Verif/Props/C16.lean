import Verif.Lemmas.Undisturbed
import Verif.Lemmas.Blame
import Verif.Lemmas.Monad
import Verif.Lemmas.Construct
import Verif.Models.Demo

/-!
# C16: a constructor tries all keywords and reports all errors together
-/

namespace Verif
open Spec

section
variable {E : Env}

/-- `r` is being initialised and has collected `es`. -/
def Noting (r : Nat) (es : List ErrTuple) (w : World) : Prop :=
  ∃ o, w.objs[r]? = some o ∧ o.gv = some true ∧ o.errs = some es

theorem noted_nil (r : Nat) (w : World) : noted r [] w = w := by
  unfold noted World.setObj
  have : w.objs.modify r (fun o => { o with errs := o.errs.map (· ++ []) }) = w.objs := by
    apply List.ext_getElem?
    intro j
    simp only [List.getElem?_modify]
    cases w.objs[j]? with
    | none => rfl
    | some o => by_cases h : r = j <;> simp [h]
  rw [this]

theorem Noting.noted {r : Nat} {es : List ErrTuple} {w : World} (h : Noting r es w)
    (ts : List ErrTuple) : Noting r (es ++ ts) (noted r ts w) := by
  obtain ⟨o, ho, hg, he⟩ := h
  refine ⟨{ o with errs := some (es ++ ts) }, ?_, hg, rfl⟩
  unfold Spec.noted World.setObj
  simp [ho, he]

theorem addErrs_noting {r : Nat} {es : List ErrTuple} {w : World} (h : Noting r es w)
    (ts : List ErrTuple) : addErrs r ts w = (.ok (), noted r ts w) := by
  obtain ⟨o, ho, hg, he⟩ := h
  unfold addErrs
  rw [bind_ok (getObj_some ho), he]
  show modObj r _ w = _
  rw [modObj_apply]
  unfold noted World.setObj
  have : w.objs.modify r (fun o => { o with errs := some (es ++ ts) }) =
      w.objs.modify r (fun o => { o with errs := o.errs.map (· ++ ts) }) := by
    apply List.ext_getElem?
    intro j
    simp only [List.getElem?_modify]
    by_cases h : r = j
    · subst h; simp [ho, he]
    · simp [h]
  rw [this]

/-- The check of a keyword name. -/
def keyCheck (c : ClassDef) (k : PyStr) : M Unit :=
  match lookupS k c.props with
  | none => if c.attrs.contains k || k == s% "_backend" then pure () else raiseK .attr
  | some (.dynamic ..) => raiseK .attr
  | some _ => pure ()

/-- What becomes of the result of an assignment. -/
def keep (r : Nat) (nv : Option PyErr) (res : Except PyErr Val) : M (Option PyErr) :=
  match res with
  | .ok _ => pure nv
  | .error e =>
      if e.kind = .validation then do
        addErrs r e.tuples
        pure nv
      else if e.kind.isGeneric then pure (nv.or (some e))
      else M.raise e

theorem initStep_eq (rec : Rec) (r : Nat) (c : ClassDef) (nv : Option PyErr) (k : PyStr) (v : Val) :
    initStep rec r c nv (k, v) = (keyCheck c k >>= fun _ =>
      M.attempt (rec (.setattr r k v)) >>= keep r nv) := by
  unfold initStep keyCheck
  dsimp only
  have aux : ∀ m : M Unit, (m >>= fun _ => (M.attempt (rec (.setattr r k v)) >>= fun res =>
      match res with
      | .ok _ => pure nv
      | .error e =>
          if e.kind = .validation then do
            addErrs r e.tuples
            pure nv
          else if e.kind.isGeneric then pure (nv.or (some e))
          else M.raise e)) = (m >>= fun _ => M.attempt (rec (.setattr r k v)) >>= keep r nv) := by
    intro m
    congr 1
  rw [← aux]
  cases lookupS k c.props with
  | none =>
    dsimp only
    split <;> rfl
  | some e => cases e <;> rfl

theorem keyCheck_accepted {c : ClassDef} {k : PyStr} (h : Accepted c k) (w : World) :
    keyCheck c k w = (.ok (), w) := by
  unfold keyCheck
  rcases h with ⟨e, he, hd⟩ | ⟨hn, h⟩
  · rw [he]
    cases e with
    | dynamic p g s d => exact absurd rfl (hd p g s d)
    | _ => rfl
  · rw [hn]
    have : (c.attrs.contains k || k == s% "_backend") = true := by
      rcases h with h | h
      · simp [h]
      · simp [h]
    simp only [this, if_true]
    rfl

theorem keyCheck_refused {c : ClassDef} {k : PyStr} (h : ¬ Accepted c k) (w : World) :
    keyCheck c k w = (.error ⟨.attr, []⟩, w) := by
  unfold keyCheck
  cases hl : lookupS k c.props with
  | none =>
    have : (c.attrs.contains k || k == s% "_backend") = false := by
      cases hb : (c.attrs.contains k || k == s% "_backend") with
      | false => rfl
      | true =>
        refine absurd (Or.inr ⟨hl, ?_⟩) h
        simpa using hb
    simp only [this]
    rfl
  | some e =>
    cases e with
    | dynamic p g s d => rfl
    | mutable p => exact absurd (Or.inl ⟨_, hl, by simp⟩) h
    | gettable p => exact absurd (Or.inl ⟨_, hl, by simp⟩) h
    | renamed p => exact absurd (Or.inl ⟨_, hl, by simp⟩) h

theorem init_loop (hE : ∀ f args, Indirect (E.fn f args)) {n r : Nat} {c : ClassDef} :
    ∀ (kw : List (PyStr × Val)) (nv : Option PyErr) {w : World} {es : List ErrTuple}, Noting r es w →
    ∃ xs stop w2, Tries E n r c kw w xs stop w2 ∧
      (∀ e, stop = some e → foldML (initStep (run E n) r c) nv kw w = (.error e, w2)) ∧
      (stop = none → foldML (initStep (run E n) r c) nv kw w = (.ok (nv.or (firstOther xs)), w2) ∧
        Noting r (es ++ xs.flatMap tuplesOf) w2 ∧ xs.length = kw.length)
  | [], nv, w, es, hb => ⟨[], none, w, .done w, fun e h => (by cases h), fun _ =>
      ⟨(by cases nv <;> rfl), (by simpa using hb), rfl⟩⟩
  | (k, v) :: rest, nv, w, es, hb => by
      unfold foldML
      rw [initStep_eq]
      by_cases hk : Accepted c k
      · rcases hx : run E n (.setattr r k v) w with ⟨x, w1⟩
        have hu : Undisturbed r w w1 := by
          have := run_undisturbed hE n (.setattr r k v) r (by simp) (w := w)
            (by obtain ⟨o, ho, hg, _⟩ := hb; exact ⟨o, ho, hg⟩)
          rw [hx] at this; exact this
        have hb1 : Noting r es w1 := by
          obtain ⟨o, ho, hg, he⟩ := hb
          obtain ⟨o', ho', he'⟩ := hu.errs o ho
          obtain ⟨o2, ho2, hk2⟩ := hu.restored.old r o ho
          rw [ho'] at ho2; cases ho2
          exact ⟨o', ho', hk2.gv.2 hg, he'.trans he⟩
        have hatt : (keyCheck c k >>= fun _ => M.attempt (run E n (.setattr r k v)) >>= keep r nv) w =
            keep r nv x w1 := by
          rw [bind_ok (keyCheck_accepted hk w)]
          refine bind_ok (a := x) ?_
          rw [attempt_apply, hx]
        by_cases hg : ∀ e, x = .error e → e.kind.isGeneric = true
        · -- the assignment succeeds or its error is kept
          have hkeep : ∃ nv1, keep r nv x w1 = (.ok nv1, noted r (tuplesOf x) w1) ∧
              ∀ ys, nv1.or (firstOther ys) = nv.or (firstOther (x :: ys)) := by
            cases x with
            | ok u => exact ⟨nv, by unfold tuplesOf; rw [noted_nil]; rfl, fun _ => rfl⟩
            | error e =>
              have hge := hg e rfl
              by_cases hv : e.kind = .validation
              · refine ⟨nv, ?_, fun ys => ?_⟩
                · unfold keep tuplesOf
                  simp only [hv, if_true]
                  exact bind_ok (addErrs_noting hb1 _)
                · simp [firstOther, hv]
              · refine ⟨nv.or (some e), ?_, fun ys => ?_⟩
                · unfold keep tuplesOf
                  simp only [hv, if_false, hge, if_true]
                  rw [noted_nil]
                  rfl
                · cases nv <;> simp [firstOther, hv]
          obtain ⟨nv1, h1, h2⟩ := hkeep
          obtain ⟨xs, stop, w2, ht, hs, hn⟩ := init_loop hE rest nv1 (hb1.noted (tuplesOf x))
          refine ⟨x :: xs, stop, w2, .tried k v rest w w1 w2 x xs stop hk hx hg ht, ?_, ?_⟩
          · intro e he
            rw [bind_ok (hatt.trans h1)]
            exact hs e he
          · intro he
            obtain ⟨h3, h4, h5⟩ := hn he
            refine ⟨?_, ?_, by simp [h5]⟩
            · rw [bind_ok (hatt.trans h1), h3, h2]
            · simpa [List.append_assoc] using h4
        · simp only [Classical.not_forall] at hg
          obtain ⟨e, he, hge⟩ := hg
          subst he
          have hge : e.kind.isGeneric = false := by simpa using hge
          refine ⟨[], some e, w1, .broken k v rest w w1 e hk hx hge, ?_, fun h => by cases h⟩
          intro e' he'
          cases he'
          refine bind_err (hatt.trans ?_)
          unfold keep
          have hv : e.kind ≠ .validation := by intro h; rw [h] at hge; cases hge
          simp only [hv, if_false, hge]
          rfl
      · refine ⟨[], some ⟨.attr, []⟩, w, .refused k v rest w hk, ?_, fun h => by cases h⟩
        intro e he
        cases he
        exact bind_err (bind_err (keyCheck_refused hk w))

/-- The state in which the keywords are processed, seen from the state in which
`C()` ends. -/
def begun (r : Nat) (w : World) : World :=
  w.setObj r (fun o => { o with gv := some true, errs := some [] })

theorem begun_clear (r : Nat) (w : World) : begun r (clearValidating r (initialising r w)) =
    initialising r w := by
  unfold begun clearValidating initialising World.setObj
  simp only
  congr 1
  apply List.ext_getElem?
  intro j
  simp only [List.getElem?_modify]
  cases w.objs[j]? with
  | none => rfl
  | some o => by_cases h : r = j <;> simp [h]

/-- The constructor, given that the constructor without keywords succeeds. -/
theorem construct_keywords {n : Nat} {c : ClsId} {w w0 : World} {v0 : Val}
    (h0 : run E (n + 1) (.construct c []) w = (.ok v0, w0)) (kw : List (PyStr × Val))
    (hcls : ∀ kv ∈ kw, kv.1 ≠ s% "cls") (hself : ∀ kv ∈ kw, kv.1 ≠ s% "self") :
    v0 = .obj w.objs.length ∧
    (∃ o, w0.objs[w.objs.length]? = some o ∧ o.cls = c ∧ o.gv = some false) ∧
    run E (n + 1) (.construct c kw) w =
      (((M.fin (foldML (initStep (run E n) w.objs.length (E.classes c)) none kw >>=
        raiseCollected E (run E n) w.objs.length) (clearValidating w.objs.length)) >>=
        fun _ => pure (Val.obj w.objs.length)) : M Val) (begun w.objs.length w0) := by
  have h0' : constructBody E (run E n) c [] w = (.ok v0, w0) := h0
  obtain ⟨hv, w2, w3, x, h1, h2, h3⟩ := construct_phases h0'
  have hres := ((restored_stable E).run_ok (n + 1)).post (.construct c []) trivial w trivial v0 w0 h0
  obtain ⟨r, hr, _, o, ho, hc⟩ := hres
  rw [hv] at hr; cases hr
  obtain ⟨nv, w4, w5, h4, h5, h6⟩ := init_phases h3
  cases h4
  have ho2 : ∃ o2, w3.objs[w.objs.length]? = some o2 := by
    cases h : w3.objs[w.objs.length]? with
    | some o2 => exact ⟨o2, rfl⟩
    | none =>
      have hi : (initialising w.objs.length w3).objs[w.objs.length]? = none := by
        simp [initialising, World.setObj, h]
      unfold raiseCollected at h5
      rw [bind_err (getObj_none hi)] at h5
      cases h5
  obtain ⟨o2, ho2⟩ := ho2
  have h5' : w5 = initialising w.objs.length w3 := by
    have hi : (initialising w.objs.length w3).objs[w.objs.length]? =
        some { o2 with gv := some true, errs := some [] } := by
      simp [initialising, World.setObj, ho2]
    unfold raiseCollected at h5
    rw [bind_ok (getObj_some hi)] at h5
    cases h5; rfl
  subst h5'
  refine ⟨hv, ⟨o, ho, hc, ?_⟩, ?_⟩
  · rw [h6] at ho
    simp only [clearValidating, initialising, World.setObj, List.getElem?_modify, ho2] at ho
    simp at ho
    rw [← ho]
  · show constructBody E (run E n) c kw w = _
    have hb : begun w.objs.length w0 = initialising w.objs.length w3 := by
      rw [h6]; exact begun_clear _ _
    rw [hb]
    unfold constructBody
    have e1 : kw.any (fun kv => kv.1 == s% "cls") = false := by
      rw [List.any_eq_false]; intro kv hkv; simpa using hcls kv hkv
    have e2 : kw.any (fun kv => kv.1 == s% "self") = false := by
      rw [List.any_eq_false]; intro kv hkv; simpa using hself kv hkv
    rw [e1]
    refine (bind_ok (a := ()) (w' := w) rfl).trans ?_
    refine (bind_ok (m := alloc { cls := c, listeners := initListeners (E.classes c) })
      (a := w.objs.length) (w' := allocated E c w) rfl).trans ?_
    refine (bind_ok h1).trans ?_
    refine (bind_ok h2).trans ?_
    unfold initBody
    rw [e2]
    show _ = _
    simp only [bind, M.bind, pure, M.ret, raiseWhen, modObj_apply]
    rfl

theorem Tries.class_kept {n r : Nat} {c : ClassDef} {kw : List (PyStr × Val)} {w w2 : World}
    {xs : List (Except PyErr Val)} {stop : Option PyErr} (h : Tries E n r c kw w xs stop w2)
    {o : Obj} (ho : w.objs[r]? = some o) : ∃ o2, w2.objs[r]? = some o2 ∧ o2.cls = o.cls := by
  induction h generalizing o with
  | done => exact ⟨o, ho, rfl⟩
  | refused => exact ⟨o, ho, rfl⟩
  | tried k v rest w w1 w2 x xs stop _ hx _ _ ih =>
    have := run_restored E n (.setattr r k v) w
    rw [hx] at this
    obtain ⟨o1, h1, k1⟩ := this.old r o ho
    obtain ⟨o2, h2, k2⟩ := ih (o := { o1 with errs := o1.errs.map (· ++ tuplesOf x) })
      (by simp [Spec.noted, World.setObj, h1])
    exact ⟨o2, h2, k2.trans k1.cls⟩
  | broken k v rest w w1 e _ hx _ =>
    have := run_restored E n (.setattr r k v) w
    rw [hx] at this
    obtain ⟨o1, h1, k1⟩ := this.old r o ho
    exact ⟨o1, h1, k1.cls⟩

/-- C16: construction with keywords, given that construction without them
succeeds.  All keywords are assigned in order, whatever fails (`Tries`), unless
one is not accepted or an assignment raises an error that is not handled.  If an
assignment raised a ValidationError, one ValidationError with the error tuples of
all of them in order is raised, after one call of the error hook; otherwise the
first other error; otherwise there is the new instance. -/
theorem C16_construct (hE : ∀ f args, Indirect (E.fn f args)) {n : Nat} {c : ClsId}
    (hh : (E.classes c).hook = none) {w w0 : World} {v0 : Val}
    (h0 : run E (n + 1) (.construct c []) w = (.ok v0, w0)) (kw : List (PyStr × Val))
    (hcls : ∀ kv ∈ kw, kv.1 ≠ s% "cls") (hself : ∀ kv ∈ kw, kv.1 ≠ s% "self") :
    ∃ r xs stop w2, v0 = .obj r ∧
      Tries E n r (E.classes c) kw (begun r w0) xs stop w2 ∧
      (∀ e, stop = some e →
        run E (n + 1) (.construct c kw) w = (.error e, clearValidating r w2)) ∧
      (stop = none → xs.length = kw.length ∧
        (xs.flatMap tuplesOf ≠ [] → run E (n + 1) (.construct c kw) w =
          (.error ⟨.validation, xs.flatMap tuplesOf⟩,
            clearValidating r { w2 with hooks := w2.hooks ++ [(r, xs.flatMap tuplesOf)] })) ∧
        (xs.flatMap tuplesOf = [] → ∀ e, firstOther xs = some e →
          run E (n + 1) (.construct c kw) w = (.error e, clearValidating r w2)) ∧
        (xs.flatMap tuplesOf = [] → firstOther xs = none →
          run E (n + 1) (.construct c kw) w = (.ok (.obj r), clearValidating r w2))) := by
  obtain ⟨hv, ⟨o, ho, hc, hg⟩, hrun⟩ := construct_keywords h0 kw hcls hself
  have hb : Noting w.objs.length [] (begun w.objs.length w0) :=
    ⟨{ o with gv := some true, errs := some [] }, by simp [begun, World.setObj, ho], rfl, rfl⟩
  obtain ⟨xs, stop, w2, ht, hs, hn⟩ := init_loop hE (n := n) (c := E.classes c) kw none hb
  refine ⟨w.objs.length, xs, stop, w2, hv, ht, fun e he => ?_, fun he => ?_⟩
  · rw [hrun]
    refine bind_err ?_
    rw [fin_apply, bind_err (hs e he)]
  · obtain ⟨hf, ⟨o2, ho2, hg2, he2⟩, hl⟩ := hn he
    obtain ⟨o2', ho2', hc2⟩ := Tries.class_kept ht (o := { o with gv := some true, errs := some [] })
      (by simp [begun, World.setObj, ho])
    rw [ho2] at ho2'; cases ho2'
    rw [List.nil_append] at he2
    have hcol : ∀ nv, raiseCollected E (run E n) w.objs.length nv w2 =
        (if xs.flatMap tuplesOf ≠ [] then (do
            runHook E (run E n) w.objs.length (xs.flatMap tuplesOf)
            M.raise ⟨.validation, xs.flatMap tuplesOf⟩)
          else match nv with
            | some e => M.raise e
            | none => pure () : M Unit) w2 := by
      intro nv
      unfold raiseCollected
      rw [bind_ok (getObj_some ho2), he2]
      rfl
    refine ⟨hl, fun hne => ?_, fun hnil e he => ?_, fun hnil he => ?_⟩
    · rw [hrun]
      refine bind_err ?_
      rw [fin_apply, bind_ok hf, hcol, if_pos hne]
      have : runHook E (run E n) w.objs.length (xs.flatMap tuplesOf) w2 =
          (.ok (), { w2 with hooks := w2.hooks ++ [(w.objs.length, xs.flatMap tuplesOf)] }) := by
        unfold runHook
        rw [bind_ok (getObj_some ho2), bind_ok (modify_apply _ _), hc2]
        dsimp only
        rw [hc, hh]
        rfl
      rw [bind_ok this]
      rfl
    · rw [hrun]
      refine bind_err ?_
      rw [fin_apply, bind_ok hf, hcol, if_neg (by simp [hnil])]
      rw [he]
      rfl
    · rw [hrun]
      refine (bind_ok (a := ()) (w' := clearValidating w.objs.length w2) ?_).trans rfl
      rw [fin_apply, bind_ok hf, hcol, if_neg (by simp [hnil])]
      rw [he]
      rfl

/-- C16: an invalid value for a keyword that names a property yields one error
tuple. -/
theorem C16_one_tuple {n r : Nat} {k : PyStr} {p : PropSpec} {v : Val} {w w1 : World} {o : Obj}
    {e : PyErr} (ho : w.objs[r]? = some o) (hb : BeingValidated o)
    (hp : lookupS k (E.classes o.cls).props = some (.mutable p)) (hu : v ≠ .undef)
    (hx : run E n (.validate k p (some r) v) w = (.error e, w1)) (he : e.kind = .validation) :
    run E (n + 1) (.setattr r k v) w = (.error e, w1) ∧
      tuplesOf (.error e : Except PyErr Val) = [⟨some (s% "invalid"), some k, some r⟩] := by
  constructor
  · show setattrBody E (run E n) r k v w = _
    unfold setattrBody
    have h1 : entryOf E r k w = (.ok (some (.mutable p)), w) := by
      unfold entryOf
      rw [bind_ok (getObj_some ho), hp]
      rfl
    refine (bind_ok h1).trans ?_
    show assignBody E (run E n) r k p v w = _
    unfold assignBody
    have h2 : v.isUndef = false := by cases v <;> first | rfl | exact absurd rfl hu
    rw [h2]
    exact bind_err hx
  · unfold tuplesOf
    dsimp only
    rw [if_pos he]
    exact (run_blames (b := true) n p v w e w1 ⟨o, ho, hb, fun h => by cases h⟩ hx he).1

theorem Tries.refused_attr {n r : Nat} {c : ClassDef} {kw : List (PyStr × Val)} {w w2 : World}
    {xs : List (Except PyErr Val)} {stop : Option PyErr} (h : Tries E n r c kw w xs stop w2)
    {k : PyStr} {v : Val} (hk : (k, v) ∈ kw) (hna : ¬ Accepted c k) :
    ∃ e, stop = some e ∧ (e = ⟨.attr, []⟩ ∨ e.kind.isGeneric = false) := by
  induction h with
  | done => cases hk
  | refused => exact ⟨_, rfl, .inl rfl⟩
  | tried k' v' rest w w1 w2 x xs stop ha _ _ _ ih =>
    rcases List.mem_cons.1 hk with h | h
    · cases h; exact absurd ha hna
    · exact ih h
  | broken k' v' rest w w1 e _ _ hg => exact ⟨e, rfl, .inr hg⟩

/-- C16: with a keyword that is not accepted there is no instance: AttributeError,
unless an earlier keyword ended with an error that is not handled. -/
theorem C16_unknown (hE : ∀ f args, Indirect (E.fn f args)) {n : Nat} {c : ClsId}
    (hh : (E.classes c).hook = none) {w w0 : World} {v0 : Val}
    (h0 : run E (n + 1) (.construct c []) w = (.ok v0, w0)) (kw : List (PyStr × Val))
    (hcls : ∀ kv ∈ kw, kv.1 ≠ s% "cls") (hself : ∀ kv ∈ kw, kv.1 ≠ s% "self")
    {k : PyStr} {v : Val} (hk : (k, v) ∈ kw) (hna : ¬ Accepted (E.classes c) k) :
    ∃ e, (run E (n + 1) (.construct c kw) w).1 = .error e ∧
      (e.kind = .attr ∨ e.kind.isGeneric = false) := by
  obtain ⟨r, xs, stop, w2, _, ht, hs, _⟩ := C16_construct hE hh h0 kw hcls hself
  obtain ⟨e, he, h⟩ := Tries.refused_attr ht hk hna
  refine ⟨e, by rw [hs e he], ?_⟩
  rcases h with rfl | h
  · exact .inl rfl
  · exact .inr h

end

/-! ## Example -/

/-- A class with two Integer properties. -/
def c16Env : Env := { demoEnv with
  classes := fun _ => { (default : ClassDef) with
    props := [(s% "a", .mutable (.mk true none none .undef (.integer false none none))),
              (s% "b", .mutable (.mk true none none .undef (.integer false none none)))]
    validators := [none] } }

/-- Both invalid keywords are reported, and the valid one was assigned. -/
theorem C16_example :
    (run c16Env 5 (.construct 0 [(s% "a", .str (s% "x")), (s% "b", .none), (s% "a", .int 3)]) {}).1 =
      .error ⟨.validation, [⟨some (s% "invalid"), some (s% "a"), some 0⟩,
        ⟨some (s% "invalid"), some (s% "b"), some 0⟩]⟩ := by
  with_unfolding_all rfl

/-- The hypotheses of the theorem hold there. -/
example : (∀ f args, Indirect (c16Env.fn f args)) ∧ (c16Env.classes 0).hook = none ∧
    ∃ w0, run c16Env 5 (.construct 0 []) {} = (.ok (.obj 0), w0) :=
  ⟨fun _ _ => trivial, rfl, _, by with_unfolding_all rfl⟩

end Verif
