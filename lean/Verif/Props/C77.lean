import Verif.Spec.LinkProg
import Verif.Lemmas.Monad
import Verif.Lemmas.Notify
import Verif.Lemmas.Access
import Verif.Lemmas.Rebuild
import Verif.Lemmas.ScalarErr
import Verif.Lemmas.Alike
import Verif.Props.C92
import Verif.Props.C01
import Verif.Props.C40
import Verif.Models.Demo
import Mathlib.Data.List.Nodup

/-!
# C77: links in the main model

Directional links, written as user code of the main model, do exactly what the model of links
says; so what C40 to C42 say of linked properties holds in the main model.
-/

namespace Verif.LinkProg
open Verif.Links Verif.LinkProg.Spec Verif.Spec

theorem hasId_put (d i : Nat) (b : Bool) (xs : List Val) :
    hasId d (putId i b xs) = if d = i then b else hasId d xs := by
  have key : ∀ v, isId d v = true → isId i v = true → d = i := by
    intro v h1 h2
    cases v <;> simp_all [isId]
  unfold hasId putId
  cases b with
  | true =>
    rw [if_pos rfl, List.any_cons]
    by_cases h : d = i
    · subst h; simp [isId]
    · rw [if_neg h]
      have : isId d (.int i) = false := by
        simp [isId]; omega
      rw [this, Bool.false_or]
  | false =>
    rw [if_neg (by decide)]
    by_cases h : d = i
    · subst h
      rw [if_pos rfl]
      simp
    · rw [if_neg h]
      rw [Bool.eq_iff_iff]
      simp only [List.any_eq_true, List.mem_filter]
      constructor
      · rintro ⟨x, ⟨h1, _⟩, h2⟩; exact ⟨x, h1, h2⟩
      · rintro ⟨x, h1, h2⟩
        refine ⟨x, ⟨h1, ?_⟩, h2⟩
        cases hx : isId i x with
        | false => rfl
        | true => exact (h (key x h2 hx)).elim

theorem agrees_ok {α : Type} (v : α) : Agrees (.ok v) (.ok ()) := ⟨⟨fun _ => rfl, fun _ => ⟨v, rfl⟩⟩, nofun⟩

theorem agrees_err {α : Type} {e : PyErr} {e' : LErr} (h : e.kind ≠ .recursion) :
    Agrees (.error e : Except PyErr α) (.error e') := ⟨⟨nofun, nofun⟩, fun x hx => by cases hx; exact h⟩

theorem agrees_ok_iff {α β : Type} {v : α} {u : β} {res : Except LErr Unit} (h : Agrees (.ok v) res) : Agrees (.ok u) res :=
  ⟨⟨fun _ => h.1.1 ⟨v, rfl⟩, fun _ => ⟨u, rfl⟩⟩, nofun⟩

theorem agrees_err_iff {α β : Type} {e : PyErr} {res : Except LErr Unit} (h : Agrees (.error e : Except PyErr α) res) :
    Agrees (.error e : Except PyErr β) res :=
  ⟨⟨nofun, fun hr => by obtain ⟨_, h0⟩ := h.1.2 hr; cases h0⟩, fun x hx => by cases hx; exact h.2 e rfl⟩

variable {E : Env} {LE : LEnv Val} {N : Nat} {F : Spec.Frame}

/-- Same heap, same quarantine, same flags: same situation. -/
theorem _root_.Verif.LinkProg.Spec.Sim.of_eq {W W' : World} {w : LW Val} (h : Sim E F W w) (h1 : W'.objs = W.objs) (h2 : W'.quar = W.quar)
    (h3 : W'.user = W.user) : Sim E F W' w where
  quar := h2.trans h.quar
  holds i hi := by
    obtain ⟨o, ho⟩ := h.holds i hi
    exact ⟨o, by rw [h1]; exact ho.obj, ho.entry, ho.hook, ho.value, ho.listeners⟩
  good := h.good
  flags := by rw [h3]; exact h.flags
  links := h.links

theorem _root_.Verif.LinkProg.Spec.Sim.hooks {W W' : World} {w : LW Val} (h : Sim E F W w) (hs : SameButHooks W W') : Sim E F W' w := by
  obtain ⟨k, rfl⟩ := hs
  exact h.of_eq rfl rfl rfl

theorem _root_.Verif.LinkProg.Spec.Sim.upd {W : World} {w : LW Val} (h : Sim E F W w) (d : Nat) (b : Bool) :
    Sim E F { W with user := setUpd d b W.user } { w with upd := put w.upd d b } where
  quar := h.quar
  holds i hi := by
    obtain ⟨o, ho⟩ := h.holds i hi
    exact ⟨o, ho.obj, ho.entry, ho.hook, ho.value, ho.listeners⟩
  good := h.good
  flags := by
    obtain ⟨us, ds, hu, h1, h2⟩ := h.flags
    refine ⟨us, putId d b ds, by rw [hu]; rfl, h1, fun x => ?_⟩
    rw [hasId_put, h2]
    rfl
  links := h.links

theorem _root_.Verif.LinkProg.Spec.Sim.unl {W : World} {w : LW Val} (h : Sim E F W w) (d : Nat) (b : Bool) :
    Sim E F { W with user := setUnl d b W.user } { w with unl := put w.unl d b } where
  quar := h.quar
  holds i hi := by
    obtain ⟨o, ho⟩ := h.holds i hi
    exact ⟨o, ho.obj, ho.entry, ho.hook, ho.value, ho.listeners⟩
  good := h.good
  flags := by
    obtain ⟨us, ds, hu, h1, h2⟩ := h.flags
    refine ⟨putId d b us, ds, by rw [hu]; rfl, fun x => ?_, h2⟩
    rw [hasId_put, h1]
    rfl
  links := h.links

/-- The stored form of a value: `undefined` is not stored. -/
def optOf (v : Val) : Option Val := if v.isUndef then none else some v

theorem optOf_ne {v : Val} (h : v ≠ .undef) : optOf v = some v := by
  unfold optOf
  cases v <;> first | rfl | exact (h rfl).elim

/-- Writing a value. -/
theorem _root_.Verif.LinkProg.Spec.Sim.store (hf : Fits E LE N F) {W : World} {w : LW Val} (h : Sim E F W w) {i : Nat} (hi : F.D i) {v : Val}
    (hg : v = .undef ∨ F.good i v) :
    ∃ W', writeStored (F.at_ i).1 (F.at_ i).2 v W = (.ok (), W') ∧
      Sim E F W' { w with vals := put w.vals i (optOf v) } := by
  refine ⟨_, modObj_apply _ _ _, h.quar, fun j hj => ?_, fun j x hj hx => ?_, h.flags, h.links⟩
  · obtain ⟨o, ho⟩ := h.holds j hj
    by_cases hr : (F.at_ i).1 = (F.at_ j).1
    · refine ⟨{ o with backend := if v.isUndef then eraseS (F.at_ i).2 o.backend else setS (F.at_ i).2 v o.backend }, by
        rw [World.setObj, hr]
        show (W.objs.modify _ _)[(F.at_ j).1]? = _
        rw [List.getElem?_modify_eq, ho.obj]
        exact rfl, ho.entry, ho.hook, ?_, ho.listeners⟩
      dsimp only
      by_cases hij : j = i
      · subst hij
        simp only [put, if_pos]
        unfold optOf
        cases v.isUndef with
        | true => rw [if_pos rfl, if_pos rfl, lookupS_eraseS]
        | false => rw [if_neg (by decide), if_neg (by decide), lookupS_setS]
      · have hn : (F.at_ j).2 ≠ (F.at_ i).2 := fun e => hij (hf.apart j i hj hi (Prod.ext hr.symm e))
        simp only [put, if_neg hij]
        rw [← ho.value]
        split
        · exact lookupS_eraseS_ne hn _
        · exact lookupS_setS_ne hn _ _
    · refine ⟨o, by
        show (W.objs.modify _ _)[(F.at_ j).1]? = _
        rw [List.getElem?_modify_ne _ _ hr]
        exact ho.obj, ho.entry, ho.hook, ?_, ho.listeners⟩
      rw [ho.value]
      have hij : j ≠ i := fun e => hr (by rw [e])
      simp only [put, if_neg hij]
  · simp only [put] at hx
    split at hx
    · rename_i hji
      subst hji
      rcases hg with rfl | hg
      · cases hx
      · unfold optOf at hx
        split at hx
        · cases hx
        · cases hx; exact hg
    · exact h.good j x hj hx

/-- What one call of `setattr` does, as far as links go: the induction hypothesis. -/
def SetsAs (E : Env) (F : Spec.Frame) (rec : Rec) (set : Nat → Val → LM Val) : Prop :=
  ∀ i v W w, F.D i → v ≠ .undef → Sim E F W w → (set i v w).1 ≠ .error .recursion →
    ∃ x W', rec (.setattr (F.at_ i).1 (F.at_ i).2 v) W = (x, W') ∧ Agrees x (set i v w).1 ∧ Sim E F W' (set i v w).2

theorem getattr_reads (hf : Fits E LE N F) {W : World} {w : LW Val} (h : Sim E F W w) {i : Nat} (hi : F.D i) {n : Nat}
    (hn : 1 ≤ n) :
    run E n (.getattr (F.at_ i).1 (F.at_ i).2) W = (.ok ((w.vals i).getD LE.noneV), W) := by
  obtain ⟨m, rfl⟩ : ∃ m, n = m + 1 := ⟨n - 1, by omega⟩
  obtain ⟨o, ho⟩ := h.holds i hi
  show getattrBody E (run E m) _ _ W = _
  unfold getattrBody getStored
  rw [bind_ok (entryOf_apply ho.obj _), ho.entry]
  show (getObj _ >>= _) W = _
  rw [bind_ok (getObj_some ho.obj), ho.value, hf.none_]
  rfl

theorem finish_runs {n : Nat} (hn : 1 ≤ n) (l : DLink) (x : Except PyErr Val) (k : Except PyErr Val → Prog) (W : World) :
    execProg (run E n) (finishUpdate l x k) W =
      execProg (run E n) (k x) { W with user := setUpd l.id false W.user } := by
  obtain ⟨m, rfl⟩ : ∃ m, n = m + 1 := ⟨n - 1, by omega⟩
  rfl

/-- One link. -/
theorem update_sim (hf : Fits E LE N F) {n : Nat} (hn : N ≤ n) {set : Nat → Val → LM Val}
    (hs : SetsAs E F (run E n) set) {l : Lnk Val} (hl : Is F l) {W : World} {w : LW Val} (h : Sim E F W w)
    (hr : (update LE set l w).1 ≠ .error .recursion) (k : Except PyErr Val → Prog) :
    ∃ x W', execProg (run E n) (updateProg (F.tab l.id) k) W = execProg (run E n) (k x) W' ∧
      Agrees x (update LE set l w).1 ∧ Sim E F W' (update LE set l w).2 := by
  have hp := hf.pos
  have hn1 : 1 ≤ n := by omega
  obtain ⟨us, ds, hu, hun, hup⟩ := h.flags
  have e0 : execProg (run E n) (updateProg (F.tab l.id) k) W =
      execProg (run E n) (if unlOf l.id W.user then k (.ok .none)
        else if updOf l.id W.user then k (.ok .none)
        else .call (.userPut (setUpd l.id true W.user)) fun _ => tryUpdate (F.tab l.id) k) W := by
    obtain ⟨m, rfl⟩ : ∃ m, n = m + 1 := ⟨n - 1, by omega⟩
    unfold updateProg
    rw [hf.ids]
    rfl
  rw [e0]
  have hU : unlOf l.id W.user = w.unl l.id := by rw [hu]; exact hun _
  have hV : updOf l.id W.user = w.upd l.id := by rw [hu]; exact hup _
  rw [hU, hV]
  unfold update at hr ⊢
  cases h1 : w.unl l.id with
  | true =>
    rw [if_pos rfl, if_pos rfl]
    exact ⟨_, W, rfl, ⟨⟨fun _ => rfl, fun _ => ⟨_, rfl⟩⟩, nofun⟩, h⟩
  | false =>
    rw [h1, if_neg Bool.false_ne_true] at hr
    rw [if_neg Bool.false_ne_true, if_neg Bool.false_ne_true]
    cases h2 : w.upd l.id with
    | true =>
      rw [if_pos rfl, if_pos rfl]
      exact ⟨_, W, rfl, ⟨⟨fun _ => rfl, fun _ => ⟨_, rfl⟩⟩, nofun⟩, h⟩
    | false =>
      rw [h2, if_neg Bool.false_ne_true] at hr
      rw [if_neg Bool.false_ne_true, if_neg Bool.false_ne_true]
      have hS := h.upd l.id true
      have e1 : execProg (run E n) (.call (.userPut (setUpd l.id true W.user)) fun _ => tryUpdate (F.tab l.id) k) W =
          execProg (run E n) (tryUpdate (F.tab l.id) k) { W with user := setUpd l.id true W.user } := by
        obtain ⟨m, rfl⟩ : ∃ m, n = m + 1 := ⟨n - 1, by omega⟩
        rfl
      rw [e1]
      generalize { W with user := setUpd l.id true W.user } = W1 at hS ⊢
      dsimp only at hr ⊢
      generalize hw1 : ({ w with upd := put w.upd l.id true } : LW Val) = w1 at hS hr ⊢
      have hvv : w.vals = w1.vals := by rw [← hw1]
      rw [hvv] at hr ⊢
      have hg := getattr_reads (LE := LE) hf hS hl.src.1 hn1
      rw [hl.src.2] at hg
      have hx0 : (w1.vals l.src).getD LE.noneV ≠ .undef := by
        cases hv : w1.vals l.src with
        | none => rw [hf.none_]; exact nofun
        | some v => exact fun e => (hf.behaves _ hl.src.1).defined (by
            have := hS.good _ _ hl.src.1 hv
            rwa [show v = Val.undef from e] at this)
      have hsame := hl.same _ hx0
      unfold tryUpdate
      simp only [execProg]
      rw [hg]
      dsimp only
      generalize (w1.vals l.src).getD LE.noneV = x0 at *
      cases ht : (F.tab l.id).transform x0 with
      | error e =>
        rw [ht] at hsame
        dsimp only at hsame ⊢
        rw [hsame.1] at hr ⊢
        dsimp only
        rw [finish_runs hn1, hf.ids]
        exact ⟨_, _, rfl, agrees_err hsame.2, hS.upd l.id false⟩
      | ok y =>
        rw [ht] at hsame
        dsimp only at hsame ⊢
        rw [hsame.1] at hr ⊢
        dsimp only at hr ⊢
        obtain ⟨x, W2, hx, ha, hS2⟩ := hs l.tgt y W1 w1 hl.tgt.1 hsame.2 hS hr
        rw [hl.tgt.2] at hx
        simp only [execProg]
        rw [hx]
        dsimp only
        rw [finish_runs hn1, hf.ids]
        exact ⟨_, _, rfl, ha, hS2.upd l.id false⟩

/-- The listeners of one notification. -/
theorem links_sim (hf : Fits E LE N F) {n : Nat} (hn : N ≤ n) {set : Nat → Val → LM Val}
    (hs : SetsAs E F (run E n) set) (r : Nat) (nm : PyStr) (m : Mode) (prev v : Val) :
    ∀ (ls : List (Lnk Val)) (W : World) (w : LW Val), (∀ l ∈ ls, Is F l) → Sim E F W w →
      (runLinks LE set ls w).1 ≠ .error .recursion →
      ∃ x W', foldML (notifyOne E (run E n) r m nm prev) v (ls.map fun l => ⟨nm, m, (F.tab l.id).fn⟩) W = (x, W') ∧
        Agrees x (runLinks LE set ls w).1 ∧ (∀ y, x = .ok y → y = v) ∧ Sim E F W' (runLinks LE set ls w).2
  | [], W, w, _, h, _ => ⟨_, W, rfl, ⟨⟨fun _ => rfl, fun _ => ⟨_, rfl⟩⟩, nofun⟩, fun y hy => by cases hy; rfl, h⟩
  | l :: ls, W, w, hl, h, hr => by
    simp only [runLinks] at hr ⊢
    have hu : (update LE set l w).1 ≠ .error .recursion := by
      intro e
      rcases hq : update LE set l w with ⟨a, b⟩
      rw [hq] at e hr
      dsimp only at e
      subst e
      exact hr rfl
    obtain ⟨x, W1, hx, ha, hS⟩ := update_sim hf hn hs (hl l (List.mem_cons_self ..))
      (h.of_eq (W' := { W with trace := W.trace ++ [⟨r, m, nm, prev, v, (F.tab l.id).fn⟩] }) rfl rfl rfl) hu (keepValue v)
    have e1 : notifyOne E (run E n) r m nm prev v ⟨nm, m, (F.tab l.id).fn⟩ W = execProg (run E n) (keepValue v x) W1 := by
      rw [← hx]
      unfold notifyOne callFn
      rw [bind_ok (modify_apply _ _), hf.code]
      rfl
    simp only [List.map_cons, foldML]
    rcases hq : update LE set l w with ⟨a, b⟩
    rw [hq] at ha hS hr
    cases a with
    | error e =>
      dsimp only at ha hS ⊢
      cases x with
      | ok y => cases ha.1.1 ⟨y, rfl⟩
      | error e' =>
        rw [bind_err (show notifyOne E (run E n) r m nm prev v ⟨nm, m, (F.tab l.id).fn⟩ W = (.error e', W1) from e1)]
        exact ⟨_, W1, rfl, ha, nofun, hS⟩
    | ok u =>
      dsimp only at ha hS hr ⊢
      obtain ⟨y, rfl⟩ := ha.1.2 rfl
      rw [bind_ok (show notifyOne E (run E n) r m nm prev v ⟨nm, m, (F.tab l.id).fn⟩ W = (.ok v, W1) from e1)]
      exact links_sim hf hn hs r nm m prev v ls W1 b (fun l' h' => hl l' (List.mem_cons_of_mem _ h')) hS hr

/-- One notification. -/
theorem notify_sim (hf : Fits E LE N F) {n : Nat} (hn : N ≤ n) {set : Nat → Val → LM Val}
    (hs : SetsAs E F (run E n) set) {i : Nat} (hi : F.D i) (b : Bool) (prev v : Val) {W : World} {w : LW Val}
    (h : Sim E F W w) (hr : (runLinks LE set (observers w i b) w).1 ≠ .error .recursion) :
    ∃ x W', notify E (run E n) (F.at_ i).1 (if b then .change else .set) (F.at_ i).2 prev v W = (x, W') ∧
        Agrees x (runLinks LE set (observers w i b) w).1 ∧ (∀ y, x = .ok y → y = v) ∧
        Sim E F W' (runLinks LE set (observers w i b) w).2 := by
  obtain ⟨o, ho⟩ := h.holds i hi
  have hls : o.listeners.filter (fun l => l.name == (F.at_ i).2 && l.mode == (if b then Mode.change else .set)) =
      (observers w i b).map fun l => ⟨(F.at_ i).2, (if b then Mode.change else .set), (F.tab l.id).fn⟩ := by
    rw [ho.listeners]
    cases b <;> rfl
  have := links_sim hf hn hs (F.at_ i).1 (F.at_ i).2 (if b then Mode.change else .set) prev v (observers w i b) W w
    (fun l hl => h.links l (List.mem_filter.mp hl).1) h hr
  unfold notify
  rw [bind_ok (getObj_some ho.obj), bind_ok (get_apply W), h.quar]
  rw [show Quar.has {} (if b then Mode.change else .set) = false by cases b <;> rfl]
  rw [if_neg Bool.false_ne_true, hls]
  exact this

theorem notify_validate {n : Nat} {i : Nat} (hi : F.D i) (prev v : Val) {W : World} {w : LW Val} (h : Sim E F W w) :
    notify E (run E n) (F.at_ i).1 .validate (F.at_ i).2 prev v W = (.ok v, W) := by
  obtain ⟨o, ho⟩ := h.holds i hi
  unfold notify
  rw [bind_ok (getObj_some ho.obj), bind_ok (get_apply W), ho.listeners]
  simp [listenersAt, foldML]

/-- `_set`. -/
theorem setBody_sim (hf : Fits E LE N F) {n : Nat} (hn : N ≤ n) {set : Nat → Val → LM Val}
    (hs : SetsAs E F (run E n) set) {i : Nat} (hi : F.D i) {v : Val} (hg : v = .undef ∨ F.good i v) {W : World}
    {w : LW Val} (h : Sim E F W w) (hr : (setNode LE set i (optOf v) w).1 ≠ .error .recursion) :
    ∃ x W', setBody E (run E n) (F.at_ i).1 (F.at_ i).2 (F.prop i) v W = (x, W') ∧
      Agrees x (setNode LE set i (optOf v) w).1 ∧ Sim E F W' (setNode LE set i (optOf v) w).2 := by
  obtain ⟨o, ho⟩ := h.holds i hi
  obtain ⟨W1, hw1, hS1⟩ := h.store hf hi hg
  have hb := hf.behaves i hi
  unfold setBody
  rw [bind_ok (getObj_some ho.obj), ho.value, bind_ok (notify_validate hi _ v h), bind_ok hw1]
  -- whether the value is new
  have hch : (if ((w.vals i).getD .undef).isUndef && v.isUndef then pure false
      else if ((w.vals i).getD .undef).isUndef || v.isUndef then pure true
      else do
        let e ← run E n (.propEqual (F.prop i) ((w.vals i).getD .undef) v)
        pure (!e.truthy) : M Bool) W1 = (.ok (differs LE i (w.vals i) (optOf v)), W1) := by
    have hv : v.isUndef = true → v = .undef := by cases v <;> first | exact fun _ => rfl | exact nofun
    cases hp : w.vals i with
    | none =>
      unfold optOf
      cases hu : v.isUndef with
      | true => rfl
      | false => rfl
    | some a =>
      have hga := h.good i a hi hp
      have hau : a.isUndef = false := by
        cases hc : a.isUndef with
        | false => rfl
        | true =>
          have : a = .undef := by cases a <;> first | rfl | cases hc
          exact (hb.defined (this ▸ hga)).elim
      simp only [Option.getD_some, hau, Bool.false_and, Bool.false_or, Bool.false_eq_true, if_false]
      unfold optOf
      cases hu : v.isUndef with
      | true => rfl
      | false =>
        have hgv : F.good i v := by
          rcases hg with rfl | hg
          · cases hu
          · exact hg
        obtain ⟨y, hy, ht⟩ := hb.equal a v hga hgv n W1 hn
        simp only [Bool.false_eq_true, if_false]
        rw [bind_ok hy, ht]
        rfl
  rw [bind_ok hch]
  unfold setNode at hr ⊢
  generalize ({ w with vals := put w.vals i (optOf v) } : LW Val) = w1 at hS1 hr ⊢
  generalize (w.vals i).getD .undef = prev
  generalize differs LE i (w.vals i) (optOf v) = dif at hr ⊢
  unfold notifyLinks at hr ⊢
  cases dif with
  | false =>
    rw [if_neg (by decide)] at hr ⊢
    rw [if_neg (by decide)]
    rw [bind_ok (pure_apply _ _)]
    dsimp only at hr ⊢
    obtain ⟨x, W', hx, ha, _, hS⟩ := notify_sim hf hn hs hi false prev v hS1 hr
    rw [if_neg (by decide)] at hx
    cases x with
    | ok y =>
      rw [bind_ok hx]
      exact ⟨_, _, rfl, agrees_ok_iff ha, hS⟩
    | error e =>
      rw [bind_err hx]
      exact ⟨_, _, rfl, agrees_err_iff ha, hS⟩
  | true =>
    rw [if_pos rfl] at hr ⊢
    rw [if_pos rfl]
    have hr1 : (runLinks LE set (observers w1 i true) w1).1 ≠ .error .recursion := by
      intro e
      rcases hq : runLinks LE set (observers w1 i true) w1 with ⟨a, b⟩
      rw [hq] at e hr
      dsimp only at e
      subst e
      exact hr rfl
    obtain ⟨x, W2, hx, ha, hv, hS⟩ := notify_sim hf hn hs hi true prev v hS1 hr1
    rw [if_pos rfl] at hx
    rcases hq : runLinks LE set (observers w1 i true) w1 with ⟨a, b⟩
    rw [hq] at ha hS hr
    cases a with
    | error e =>
      dsimp only at ha hS ⊢
      cases x with
      | ok y => cases ha.1.1 ⟨y, rfl⟩
      | error e' =>
        rw [bind_err hx]
        exact ⟨_, _, rfl, agrees_err_iff ha, hS⟩
    | ok u =>
      dsimp only at ha hS hr ⊢
      obtain ⟨y, rfl⟩ := ha.1.2 rfl
      rw [bind_ok hx]
      obtain rfl := hv y rfl
      obtain ⟨x, W', hx, ha, _, hS⟩ := notify_sim hf hn hs hi false prev y hS hr
      rw [if_neg (by decide)] at hx
      cases x with
      | ok y =>
        rw [bind_ok hx]
        exact ⟨_, _, rfl, agrees_ok_iff ha, hS⟩
      | error e =>
        rw [bind_err hx]
        exact ⟨_, _, rfl, agrees_err_iff ha, hS⟩

/-- Assignments, at every depth. -/
theorem assign_sim (hf : Fits E LE N F) (k : Nat) : SetsAs E F (run E (k + N)) (assign LE k) := by
  induction k with
  | zero => intro i v W w _ _ _ hr; exact (hr rfl).elim
  | succ k ih =>
    intro i v W w hi hv h hr
    obtain ⟨o, ho⟩ := h.holds i hi
    have hb := hf.behaves i hi
    have hvu : v.isUndef = false := by cases v <;> first | rfl | exact (hv rfl).elim
    have e0 : run E (k + 1 + N) (.setattr (F.at_ i).1 (F.at_ i).2 v) W =
        assignBody E (run E (k + N)) (F.at_ i).1 (F.at_ i).2 (F.prop i) v W := by
      rw [show k + 1 + N = (k + N) + 1 by omega]
      show setattrBody E (run E (k + N)) _ _ _ W = _
      unfold setattrBody
      rw [bind_ok (entryOf_apply ho.obj _), ho.entry]
    rw [e0]
    unfold assignBody
    rw [hvu, if_neg (by decide)]
    simp only [assign] at hr ⊢
    cases hc : LE.coerce i v with
    | none =>
      obtain ⟨e, W', he, hk, hsame⟩ := hb.refuses v hv hc (k + N) W o (by omega) ho.obj ho.hook
      rw [bind_err he]
      exact ⟨_, _, rfl, agrees_err hk, h.hooks hsame⟩
    | some x =>
      rw [hc] at hr
      dsimp only at hr ⊢
      obtain ⟨hg, hx⟩ := hb.accepts v x hv hc
      obtain ⟨W2, hx, hs2⟩ := hx (k + N) W o (by omega) ho.obj ho.hook
      rw [bind_ok hx]
      replace h := h.hooks hs2
      have hxu : x ≠ .undef := fun e => hb.defined (e ▸ hg)
      rw [← optOf_ne hxu] at hr ⊢
      obtain ⟨y, W', hy, ha, hS⟩ := setBody_sim hf (show N ≤ k + N by omega) ih hi (.inr hg) h hr
      cases y with
      | ok u =>
        rw [bind_ok hy]
        exact ⟨_, _, rfl, agrees_ok_iff ha, hS⟩
      | error e =>
        rw [bind_err hy]
        exact ⟨_, _, rfl, agrees_err_iff ha, hS⟩

/-- Deletions. -/
theorem delete_sim (hf : Fits E LE N F) {k i : Nat} {W : World} {w : LW Val} (hi : F.D i) (h : Sim E F W w)
    (hr : (delete LE k i w).1 ≠ .error .recursion) :
    ∃ x W', run E (k + N + 1) (.delattr (F.at_ i).1 (F.at_ i).2) W = (x, W') ∧ Agrees x (delete LE k i w).1 ∧
      Sim E F W' (delete LE k i w).2 := by
  obtain ⟨o, ho⟩ := h.holds i hi
  have e0 : run E (k + N + 1) (.delattr (F.at_ i).1 (F.at_ i).2) W =
      (setBody E (run E (k + N)) (F.at_ i).1 (F.at_ i).2 (F.prop i) .undef >>= fun _ => pure .none) W := by
    show delattrBody E (run E (k + N)) _ _ W = _
    unfold delattrBody
    rw [bind_ok (entryOf_apply ho.obj _), ho.entry]
  rw [e0]
  unfold delete at hr ⊢
  rw [show (none : Option Val) = optOf .undef from rfl] at hr ⊢
  obtain ⟨y, W', hy, ha, hS⟩ := setBody_sim hf (show N ≤ k + N by omega) (assign_sim hf k) hi (.inl rfl) h hr
  cases y with
  | ok u =>
    rw [bind_ok hy]
    exact ⟨_, _, rfl, agrees_ok_iff ha, hS⟩
  | error e =>
    rw [bind_err hy]
    exact ⟨_, _, rfl, agrees_err_iff ha, hS⟩

/-- The frame knows the place of a link's source and target. -/
theorem same_place (hf : Fits E LE N F) {l : Lnk Val} (hl : Is F l) :
    ((F.tab l.id).sr = (F.tab l.id).tr ∧ (F.tab l.id).sn = (F.tab l.id).tn) ↔ l.src = l.tgt := by
  constructor
  · rintro ⟨h1, h2⟩
    exact hf.apart _ _ hl.src.1 hl.tgt.1 (by rw [hl.src.2, hl.tgt.2, h1, h2])
  · intro h
    have := hl.src.2
    rw [h, hl.tgt.2] at this
    exact ⟨(congrArg Prod.fst this).symm, (congrArg Prod.snd this).symm⟩

/-- Registering the listener of a link. -/
theorem register_sim (hf : Fits E LE N F) {n : Nat} (hn : 1 ≤ n) {l : Lnk Val} (hl : Is F l) {W : World} {w : LW Val}
    (h : Sim E F W w) (v : Val) :
    ∃ W', execProg (run E n) (registerProg (F.tab l.id) (.ok v)) W = (.ok .none, W') ∧
      Sim E F W' { w with links := w.links ++ [l] } := by
  obtain ⟨m, rfl⟩ : ∃ m, n = m + 1 := ⟨n - 1, by omega⟩
  obtain ⟨o, ho⟩ := h.holds l.src hl.src.1
  have hobj := ho.obj
  rw [hl.src.2] at hobj
  have e0 : run E (m + 1) (.observe (F.tab l.id).sr (.names [(F.tab l.id).sn]) (F.tab l.id).mode (F.tab l.id).fn) W =
      (.ok .none, W.setObj (F.tab l.id).sr fun o =>
        { o with listeners := o.listeners ++ [⟨(F.tab l.id).sn, (F.tab l.id).mode, (F.tab l.id).fn⟩] }) := by
    show observeBody E _ _ _ _ W = _
    unfold observeBody
    rw [bind_ok (getObj_some hobj), bind_ok (modObj_apply _ _ _)]
    rfl
  refine ⟨W.setObj (F.tab l.id).sr fun o =>
      { o with listeners := o.listeners ++ [⟨(F.tab l.id).sn, (F.tab l.id).mode, (F.tab l.id).fn⟩] }, by
    unfold registerProg
    simp only [execProg]
    rw [e0]
    rfl, h.quar, fun j hj => ?_, h.good, h.flags, fun l' h' => ?_⟩
  · obtain ⟨oj, hoj⟩ := h.holds j hj
    by_cases hr : (F.tab l.id).sr = (F.at_ j).1
    · refine ⟨{ oj with listeners := oj.listeners ++ [⟨(F.tab l.id).sn, (F.tab l.id).mode, (F.tab l.id).fn⟩] }, by
        show (W.objs.modify _ _)[(F.at_ j).1]? = _
        rw [hr, List.getElem?_modify_eq, hoj.obj]
        rfl, hoj.entry, hoj.hook, hoj.value, fun m => ?_⟩
      rw [List.filter_append, hoj.listeners]
      by_cases hj2 : j = l.src
      · subst hj2
        have hsn : (F.tab l.id).sn = (F.at_ l.src).2 := by rw [hl.src.2]
        unfold DLink.mode
        rw [hl.only, hsn]
        cases m <;> cases hc : l.changeOnly <;> simp [listenersAt, observers, hc]
      · have hne : (F.tab l.id).sn ≠ (F.at_ j).2 := fun e => hj2 (hf.apart _ _ hj hl.src.1 (by
          rw [hl.src.2, hr, e]))
        have hne' : (l.src == j) = false := by rw [beq_eq_false_iff_ne]; exact fun e => hj2 e.symm
        cases m <;> simp [listenersAt, observers, hne, hne']
    · refine ⟨oj, by
        show (W.objs.modify _ _)[(F.at_ j).1]? = _
        rw [List.getElem?_modify_ne _ _ hr]
        exact hoj.obj, hoj.entry, hoj.hook, hoj.value, fun m => ?_⟩
      have hne' : (l.src == j) = false := by
        rw [beq_eq_false_iff_ne]
        rintro rfl
        rw [hl.src.2] at hr
        exact hr rfl
      rw [hoj.listeners]
      cases m <;> simp [listenersAt, observers, hne']
  · rcases List.mem_append.1 h' with h' | h'
    · exact h.links l' h'
    · rw [List.mem_singleton.1 h']
      exact hl

theorem check_runs (hf : Fits E LE N F) {n : Nat} (hn : 1 ≤ n) {i r : Nat} {nm : PyStr} (hi : F.D i) (ha : F.at_ i = (r, nm))
    {W : World} {w : LW Val} (h : Sim E F W w) (k : Prog) :
    execProg (run E n) (checkAttr r nm k) W = execProg (run E n) k W := by
  have := getattr_reads (LE := LE) hf h hi hn
  rw [ha] at this
  unfold checkAttr
  simp only [execProg]
  rw [this]

/-- Making a link. -/
theorem create_sim (hf : Fits E LE N F) {k : Nat} {l : Lnk Val} (hl : Is F l) (now : Bool) {W : World} {w : LW Val}
    (h : Sim E F W w) (hr : (create LE k l now w).1 ≠ .error .recursion) :
    ∃ x W', runProg E (k + N) (createProg (F.tab l.id) now) W = (x, W') ∧ Agrees x (create LE k l now w).1 ∧
      Sim E F W' (create LE k l now w).2 := by
  have hp := hf.pos
  unfold runProg createProg
  rw [check_runs hf (by omega) hl.src.1 hl.src.2 h, check_runs hf (by omega) hl.tgt.1 hl.tgt.2 h]
  unfold create at hr ⊢
  by_cases hst : l.src = l.tgt
  · rw [if_pos ((same_place hf hl).2 hst), if_pos hst]
    exact ⟨_, W, rfl, agrees_err (by decide), h⟩
  · rw [if_neg hst] at hr
    rw [if_neg (mt (same_place hf hl).1 hst), if_neg hst]
    cases now with
    | false =>
      obtain ⟨W', h1, h2⟩ := register_sim hf (n := k + N) (by omega) hl h .none
      exact ⟨_, W', h1, agrees_ok _, h2⟩
    | true =>
      simp only [if_true] at hr ⊢
      have hu : (update LE (assign LE k) l w).1 ≠ .error .recursion := by
        intro e
        rcases hq : update LE (assign LE k) l w with ⟨a, b⟩
        rw [hq] at e hr
        dsimp only at e
        subst e
        exact hr rfl
      obtain ⟨x, W1, hx, ha, hS⟩ := update_sim hf (show N ≤ k + N by omega) (assign_sim hf k) hl h hu
        (registerProg (F.tab l.id))
      rw [hx]
      rcases hq : update LE (assign LE k) l w with ⟨a, b⟩
      rw [hq] at ha hS
      cases a with
      | error e =>
        cases x with
        | ok y => cases ha.1.1 ⟨y, rfl⟩
        | error e' => exact ⟨_, W1, rfl, agrees_err (ha.2 e' rfl), hS⟩
      | ok u =>
        obtain ⟨y, rfl⟩ := ha.1.2 rfl
        obtain ⟨W', h1, h2⟩ := register_sim hf (n := k + N) (by omega) hl hS y
        exact ⟨_, W', h1, agrees_ok _, h2⟩

theorem flag_sim {n : Nat} (hn : 1 ≤ n) (d : Nat) (b : Bool) {W : World} {w : LW Val}
    (h : Sim E F W w) : runProg E n (flagProg d b) W = (.ok .none, { W with user := setUnl d b W.user }) ∧
      Sim E F { W with user := setUnl d b W.user } { w with unl := put w.unl d b } := by
  obtain ⟨m, rfl⟩ : ∃ m, n = m + 1 := ⟨n - 1, by omega⟩
  exact ⟨rfl, h.unl d b⟩

/-- Room for one operation. -/
def resultOf (LE : LEnv Val) (k : Nat) : LOp Val → LW Val → Except LErr Unit
  | .assign i v, w => (assign LE k i v w).1
  | .delete i, w => (delete LE k i w).1
  | .create l now, w => (create LE k l now w).1
  | .unlink _, _ => .ok ()
  | .relink _, _ => .ok ()

theorem create_settles {V : Type} (E : LEnv V) (l : Lnk V) (now : Bool) (w : LW V) {k : Nat} (hk : w.links.length < k) :
    (create E k l now w).1 ≠ .error .recursion ∧ (create E k l now w).2.links.length ≤ w.links.length + 1 := by
  have key : (update E (assign E k) l w).1 ≠ .error .recursion ∧ (update E (assign E k) l w).2.links = w.links := by
    unfold update
    split
    · exact ⟨nofun, rfl⟩
    · split
      · exact ⟨nofun, rfl⟩
      · dsimp only
        cases ht : l.transform ((w.vals l.src).getD E.noneV) with
        | none => exact ⟨nofun, rfl⟩
        | some v =>
          obtain ⟨h1, _, _, h2, _⟩ := C41_terminates E l.tgt v { w with upd := put w.upd l.id true } hk
          exact ⟨h1, h2⟩
  unfold create
  split
  · exact ⟨nofun, Nat.le_succ _⟩
  · cases now with
    | false => exact ⟨nofun, by simp⟩
    | true =>
      simp only [if_true]
      obtain ⟨h1, h2⟩ := key
      rcases hq : update E (assign E k) l w with ⟨a, b⟩
      rw [hq] at h1 h2
      cases a with
      | ok u =>
        refine ⟨nofun, ?_⟩
        dsimp only at h2 ⊢
        rw [h2]
        simp
      | error e =>
        dsimp only at h1 h2 ⊢
        refine ⟨h1, ?_⟩
        rw [h2]
        omega

/-- C77: one operation.  With room for one more level than there are links, the program ends as the model
of links says, never in RecursionError, and the states agree again. -/
theorem C77_operation (hf : Fits E LE N F) {o : LOp Val} (ho : WfOp F o) {W : World} {w : LW Val} (h : Sim E F W w)
    {k : Nat} (hk : w.links.length < k) :
    ∃ x W', runProg E (k + N) (opProg F o) W = (x, W') ∧ Agrees x (resultOf LE k o w) ∧
      Sim E F W' (doOp LE k o w) := by
  have hp := hf.pos
  have keep : ∀ (c : Call) (x : Except PyErr Val) (W' : World) (res : Except LErr Unit), run E (k + N) c W = (x, W') →
      Agrees x res → ∃ y, runProg E (k + N) (.call c (keepValue .none)) W = (y, W') ∧ Agrees y res := by
    intro c x W' res hx ha
    unfold runProg
    simp only [execProg]
    rw [hx]
    cases x with
    | ok v => exact ⟨_, rfl, agrees_ok_iff ha⟩
    | error e => exact ⟨_, rfl, agrees_err_iff ha⟩
  cases o with
  | assign i v =>
    obtain ⟨x, W', h1, h2, h3⟩ := assign_sim hf k i v W w ho.1 ho.2 h (C41_terminates LE i v w hk).1
    obtain ⟨y, h4, h5⟩ := keep _ _ _ _ h1 h2
    exact ⟨y, W', h4, h5, h3⟩
  | delete i =>
    obtain ⟨m, rfl⟩ : ∃ m, k = m + 1 := ⟨k - 1, by omega⟩
    have hi : idleCount w ≤ w.links.length := List.length_filter_le _ _
    have e1 : delete LE (m + 1) i w = delete LE m i w :=
      (setNode_settles (E := LE) (assign_settles LE m) i none w (by omega)).1.symm
    obtain ⟨x, W', h1, h2, h3⟩ := delete_sim hf (k := m) ho h (C41_delete_terminates LE i w (by omega)).1
    rw [show m + N + 1 = m + 1 + N by omega] at h1
    obtain ⟨y, h4, h5⟩ := keep _ _ _ _ h1 h2
    refine ⟨y, W', h4, ?_, ?_⟩
    · show Agrees y (delete LE (m + 1) i w).1
      rw [e1]; exact h5
    · show Sim E F W' (delete LE (m + 1) i w).2
      rw [e1]; exact h3
  | create l now => exact create_sim hf ho now h (create_settles LE l now w hk).1
  | unlink d =>
    obtain ⟨h1, h2⟩ := flag_sim (n := k + N) (by omega) d true h
    exact ⟨_, _, h1, agrees_ok _, h2⟩
  | relink d =>
    obtain ⟨h1, h2⟩ := flag_sim (n := k + N) (by omega) d false h
    exact ⟨_, _, h1, agrees_ok _, h2⟩

theorem doOp_links {V : Type} (E : LEnv V) (o : LOp V) (w : LW V) {k : Nat} (hk : w.links.length < k) :
    (doOp E k o w).links.length ≤ w.links.length + 1 := by
  cases o with
  | assign i v =>
    show (assign E k i v w).2.links.length ≤ _
    rw [(C41_terminates E i v w hk).2.2.2.1]
    omega
  | delete i =>
    have hi : idleCount w ≤ w.links.length := List.length_filter_le _ _
    show (delete E k i w).2.links.length ≤ _
    unfold delete
    rw [(setNode_settles (E := E) (assign_settles E k) i none w (by omega)).2.2.1]
    omega
  | create l now => exact (create_settles E l now w hk).2
  | unlink d => exact Nat.le_succ _
  | relink d => exact Nat.le_succ _

/-- C77: histories.  The program, run against the main model, and the history in the model of links go
through states that agree. -/
theorem C77_history (hf : Fits E LE N F) {k : Nat} : ∀ (os : List (LOp Val)) (W : World) (w : LW Val),
    (∀ o ∈ os, WfOp F o) → Sim E F W w → w.links.length + os.length < k →
    Sim E F (after E F (k + N) os W) (doOps LE k os w)
  | [], _, _, _, h, _ => h
  | o :: os, W, w, ho, h, hk => by
    simp only [List.length_cons] at hk
    obtain ⟨x, W', h1, _, h3⟩ := C77_operation hf (ho o (List.mem_cons_self ..)) h (k := k) (by omega)
    have := doOp_links LE o w (k := k) (by omega)
    simp only [after, doOps]
    rw [h1]
    exact C77_history hf os W' _ (fun o' h' => ho o' (List.mem_cons_of_mem _ h')) h3 (by omega)

/-- C77: a state without links. -/
theorem C77_start {W : World} (h : Start E F W) : Sim E F W (start F W) where
  quar := h.quar
  holds i hi := by
    obtain ⟨o, h1, h2, h3, h4, _⟩ := h.holds i hi
    refine ⟨o, h1, h2, h3, by simp [start, stored, h1], fun m => ?_⟩
    have : o.listeners.filter (fun l => l.name == (F.at_ i).2 && l.mode == m) = [] := by
      refine List.filter_eq_nil_iff.2 fun l hl => ?_
      have := h4 l hl
      simp [this]
    rw [this]
    cases m <;> rfl
  good i v hi hv := by
    obtain ⟨o, h1, _, _, _, h5⟩ := h.holds i hi
    exact h5 v (by simpa [start, stored, h1] using hv)
  flags := ⟨[], [], h.user, fun _ => rfl, fun _ => rfl⟩
  links := nofun

/-- C77: reading a property in agreeing states. -/
theorem C77_reads (hf : Fits E LE N F) {W : World} {w : LW Val} (h : Sim E F W w) {i : Nat} (hi : F.D i) (n : Nat) :
    run E (n + 1) (.getattr (F.at_ i).1 (F.at_ i).2) W = (.ok ((w.vals i).getD .none), W) ∧ stored F W i = w.vals i := by
  have := getattr_reads (LE := LE) hf h hi (n := n + 1) (by omega)
  rw [hf.none_] at this
  obtain ⟨o, ho⟩ := h.holds i hi
  refine ⟨this, ?_⟩
  unfold stored
  rw [ho.obj]
  exact ho.value

/-! ## Scalar types -/

theorem lift_err {rec : Rec} {nm : PyStr} {r : Nat} {e : SErr} {W : World} {o : Obj} (ho : W.objs[r]? = some o)
    (hh : (E.classes o.cls).hook = none) (hraw : ∀ k, e = .raw k → k ≠ .recursion) :
    ∃ x W', liftScalar E rec nm (some r) (.error e) W = (.error x, W') ∧ x.kind ≠ .recursion ∧ SameButHooks W W' := by
  have hq : ∀ W1, SameButHooks W W1 → ∃ W', (propError E rec nm (some r) W1 : Except PyErr Val × World) =
      (.error ⟨.validation, [⟨some (s% "invalid"), some nm, some r⟩]⟩, W') ∧ SameButHooks W W' := by
    rintro W1 ⟨hs, rfl⟩
    have hqi : QuietInst E { W with hooks := hs } (some r) := by
      intro r' h1
      cases h1
      exact ⟨o, ho, hh⟩
    obtain ⟨hs', h⟩ := raiseVal_quiet (α := Val) E rec (some (s% "invalid")) (some nm) (some r) { W with hooks := hs } hqi
    exact ⟨_, h, _, rfl⟩
  have h0 : SameButHooks W W := ⟨W.hooks, rfl⟩
  cases e with
  | raw k => exact ⟨_, W, rfl, hraw k rfl, h0⟩
  | invalid n =>
    obtain ⟨W1, h1, hs1⟩ := hq W h0
    by_cases hn : n = 2
    · subst hn
      show ∃ x W', M.catchIf isTypeOrValue (propError E rec nm (some r)) (fun _ => propError E rec nm (some r)) W = (.error x, W') ∧ _
      by_cases hc : isTypeOrValue .validation = true
      · obtain ⟨W2, h2, hs2⟩ := hq W1 hs1
        rw [catchIf_err h1 hc]
        exact ⟨_, W2, h2, by simp, hs2⟩
      · rw [catchIf_pass h1 (by simpa using hc)]
        exact ⟨_, W1, rfl, by simp, hs1⟩
    · have e0 : liftScalar E rec nm (some r) (.error (.invalid n)) = propError E rec nm (some r) := by
        unfold liftScalar
        split <;> rename_i heq <;> cases heq
        · exact (hn rfl).elim
        · rfl
      rw [e0]
      exact ⟨_, W1, h1, by simp, hs1⟩

theorem plain_validate {n : Nat} {nm : PyStr} {p : PropSpec} {inst : Option Nat} (hp : Plain p.ty) (v : Val) :
    ∃ y, scalarValidate E 0 p.ty v = some y ∧ run E (n + 1) (.validate nm p inst v) = liftScalar E (run E n) nm inst y := by
  show ∃ y, _ ∧ validateBody E (run E n) nm p inst v = _
  obtain ⟨h1, h2⟩ := hp
  unfold validateBody
  cases hty : p.ty <;> rw [hty] at h1 h2 <;> first
    | exact h1.elim
    | exact (h2 rfl).elim
    | exact ⟨_, rfl, rfl⟩

/-- C77: the types that validate by themselves behave as `plainEnv` says. -/
theorem C77_plain {i : Nat} (hi : F.D i → Plain (F.prop i).ty) (hg : F.good = goodFor E F.prop) (hD : F.D i) :
    Behaves E (plainEnv E F.prop F.good) 1 F i := by
  have hp := hi hD
  have acc : ∀ v x, v ≠ .undef → (plainEnv E F.prop F.good).coerce i v = some x →
      scalarValidate E 0 (F.prop i).ty v = some (.ok x) := by
    intro v x _ h
    simp only [plainEnv] at h
    split at h
    · rename_i y hy
      cases h
      exact hy
    · cases h
  refine ⟨fun v x hv h => ?_, fun v hv h n W o hn ho hh => ?_, fun a b ha hb n W hn => ?_, ?_⟩
  · have h1 := acc v x hv h
    refine ⟨?_, fun n W o hn ho hh => ⟨W, ?_, W.hooks, rfl⟩⟩
    · rw [hg]
      refine ⟨?_, {}, scalar_admits _ h1 rfl⟩
      have hadm := scalar_admits ({} : World) h1 rfl
      intro hx
      subst hx
      have hp' := hp
      cases hty : (F.prop i).ty <;> rw [hty] at h1 hadm hp' <;> first
        | exact hp'.1.elim
        | exact (hp'.2 rfl).elim
        | (cases h1; exact hv rfl)
        | cases hadm
    · obtain ⟨m, rfl⟩ : ∃ m, n = m + 1 := ⟨n - 1, by omega⟩
      obtain ⟨y, h2, h3⟩ := plain_validate (E := E) (n := m) (nm := (F.at_ i).2) (inst := some (F.at_ i).1) hp v
      rw [h1] at h2
      cases h2
      rw [h3]
      rfl
  · obtain ⟨m, rfl⟩ : ∃ m, n = m + 1 := ⟨n - 1, by omega⟩
    obtain ⟨y, h2, h3⟩ := plain_validate (E := E) (n := m) (nm := (F.at_ i).2) (inst := some (F.at_ i).1) hp v
    rw [h3]
    cases y with
    | ok x =>
      simp only [plainEnv, h2] at h
      cases h
    | error e =>
      refine lift_err ho hh fun k hk => ?_
      subst hk
      rw [scalar_raw h2]
      decide
  · obtain ⟨m, rfl⟩ : ∃ m, n = m + 1 := ⟨n - 1, by omega⟩
    have ha' := ha
    have hb' := hb
    rw [hg] at ha' hb'
    obtain ⟨_, w1, ha1⟩ := ha'
    obtain ⟨_, w2, hb1⟩ := hb'
    obtain ⟨r, hr⟩ := scalar_equal_ok hp.1 ha1 hb1
    refine ⟨_, propEqualBody_scalar hp.1 hr W, ?_⟩
    simp only [plainEnv, ha, hb, hr, true_and]
    cases r <;> simp [Val.truthy]
  · rw [hg]
    exact fun h => h.1 rfl

theorem visits_stirs {p : PropSpec} (h : Exc.Visits p) : Stirs p := by
  induction h with
  | inst h => exact .inst h
  | item h _ ih => exact .item h ih
  | value h _ ih => exact .value h ih
  | alternative h hq _ ih => exact .alternative h hq ih

/-- C77: so do properties of all types without instances and colours, at any depth, whose Unions do not
compare values by a type that is not theirs; `aloneEnv` is what `prop.validate(None, value)` and
`prop.equal(a, b)` answer. -/
theorem C77_composed {i : Nat} (hs : ¬ Stirs (F.prop i)) (hm : ¬ Exc.Mixes (F.prop i))
    (hg : F.good = goodFor E F.prop) (hN : depth (F.prop i) ≤ N) :
    Behaves E (aloneEnv E F.prop F.good) N F i := by
  have alone : ∀ v, ∃ hs', run E (depth (F.prop i)) (.validate [] (F.prop i) none v) {} =
      (pval E (clsAt {}) ⟨[], none⟩ (F.prop i) v, { ({} : World) with hooks := hs' }) := fun v =>
    run_quiet (Nat.le_refl _) (still_of _ (Nat.le_refl _) hs v) nofun
  have there : ∀ v n W o, N ≤ n → W.objs[(F.at_ i).1]? = some o → (E.classes o.cls).hook = none →
      ∃ hs', run E n (.validate (F.at_ i).2 (F.prop i) (some (F.at_ i).1) v) W =
        (pval E (clsAt W) ⟨(F.at_ i).2, some (F.at_ i).1⟩ (F.prop i) v, { W with hooks := hs' }) :=
    fun v n W o hn ho hh => run_quiet (Nat.le_trans hN hn) (still_of _ (Nat.le_refl _) hs v) fun r hr => by
      cases hr
      exact ⟨o, ho, hh⟩
  have same := fun v (W : World) => pval_anywhere (E := E) (c := clsAt {}) (c' := clsAt W) (x := ⟨[], none⟩)
    (x' := ⟨(F.at_ i).2, some (F.at_ i).1⟩) _ (Nat.le_refl _) hs v
  have acc : ∀ v x, (aloneEnv E F.prop F.good).coerce i v = some x →
      pval E (clsAt {}) ⟨[], none⟩ (F.prop i) v = .ok x := by
    intro v x h
    obtain ⟨hs', h1⟩ := alone v
    simp only [aloneEnv, h1] at h
    split at h
    · rename_i y hy
      cases h
      exact hy
    · cases h
  refine ⟨fun v x hv h => ?_, fun v hv h n W o hn ho hh => ?_, fun a b ha hb n W hn => ?_, ?_⟩
  · have h1 := acc v x h
    refine ⟨?_, fun n W o hn ho hh => ?_⟩
    · rw [hg]
      obtain ⟨hs', h2⟩ := alone v
      rw [h1] at h2
      refine ⟨?_, _, C01_validated_value_admitted E _ _ _ _ _ _ _ _ h2⟩
      intro hx
      subst hx
      exact hv (pval_defined _ (Nat.le_refl _) hs v h1)
    · obtain ⟨hs', h2⟩ := there v n W o hn ho hh
      rcases alike_cases (same v W) with ⟨a, e1, e2⟩ | ⟨e, e', e1, e2, _⟩
      · rw [h1] at e1
        cases e1
        rw [e2] at h2
        exact ⟨_, h2, hs', rfl⟩
      · rw [h1] at e1
        cases e1
  · obtain ⟨hs', h2⟩ := there v n W o hn ho hh
    rcases alike_cases (same v W) with ⟨a, e1, e2⟩ | ⟨e, e', e1, e2, e3, e4⟩
    · obtain ⟨hs1, h1⟩ := alone v
      rw [e1] at h1
      simp only [aloneEnv, h1] at h
      cases h
    · rw [e2] at h2
      exact ⟨e', _, h2, e3 ▸ e4, hs', rfl⟩
  · have ha' := ha
    have hb' := hb
    rw [hg] at ha' hb'
    obtain ⟨_, w1, ha1⟩ := ha'
    obtain ⟨_, w2, hb1⟩ := hb'
    obtain ⟨y, hy⟩ := C92_values E (F.prop i) ⟨fun h => hs (visits_stirs h), hm⟩ ha1 hb1
    refine ⟨y, hy n W (Nat.le_trans hN hn), ?_⟩
    rw [Bool.eq_iff_iff]
    simp only [aloneEnv, decide_eq_true_eq, ha, hb, hy _ {} (Nat.le_refl _), true_and]
    exact ⟨fun h => ⟨y, rfl, h⟩, fun ⟨_, h1, h2⟩ => by cases h1; exact h2⟩
  · rw [hg]
    exact fun h => h.1 rfl

/-- C77: `equal` of the exact types holds of the same values only. -/
theorem C77_exact {R : Nat → Prop} (hg : F.good = goodFor E F.prop) (hR : ∀ i, R i → Exact (F.prop i).ty) :
    Links.Spec.ExactEqual (plainEnv E F.prop F.good) R := by
  intro i a b hi h
  simp only [plainEnv, decide_eq_true_eq] at h
  obtain ⟨ha, hb, he⟩ := h
  rw [hg] at ha hb
  obtain ⟨_, w1, ha⟩ := ha
  obtain ⟨_, w2, hb⟩ := hb
  have hx := hR i hi
  cases hty : (F.prop i).ty <;> rw [hty] at hx ha hb he <;> first
    | exact hx.elim
    | skip
  all_goals (cases ha; cases hb; simp [scalarEqual, isSame, pyEq, Val.num?, PyFloat.eq] at he; simp [he])

theorem zipEqual_same {rec : Rec} {p : PropSpec} {A B : Val → Prop} (h : ∀ a b w y w', A a → B b →
      rec (.propEqual p a b) w = (.ok y, w') → y.truthy = true → a = b) :
    ∀ xs ys w w', (∀ x ∈ xs, A x) → (∀ y ∈ ys, B y) → xs.length = ys.length →
      zipEqual rec p xs ys w = (.ok true, w') → xs = ys
  | [], [], _, _, _, _, _, _ => rfl
  | x :: xs, [], _, _, _, _, hl, _ => by simp at hl
  | [], y :: ys, _, _, _, _, hl, _ => by simp at hl
  | x :: xs, y :: ys, w, w', hx, hy, hl, hz => by
    unfold zipEqual at hz
    obtain ⟨e, w1, h1, hz⟩ := bind_ok_inv hz
    obtain ⟨r, w2, h2, hz⟩ := bind_ok_inv hz
    have hz : (Except.ok (e.truthy && r), w2) = ((.ok true, w') : Except PyErr Bool × World) := hz
    simp only [Prod.mk.injEq, Except.ok.injEq, Bool.and_eq_true] at hz
    obtain ⟨⟨ht, rfl⟩, rfl⟩ := hz
    rw [h x y w e w1 (hx x (by simp)) (hy y (by simp)) h1 ht,
      zipEqual_same h xs ys w1 w2 (fun z hz => hx z (by simp [hz])) (fun z hz => hy z (by simp [hz]))
        (by simpa using hl) h2]

theorem tupEqual_same {rec : Rec} {p : PropSpec} {A B : Val → Prop} (h : ∀ a b w y w', A a → B b →
      rec (.propEqual p a b) w = (.ok y, w') → y.truthy = true → a = b) {a b : Val} {xs ys : List Val}
    (ha : a.iter? = some xs) (hb : b.iter? = some ys) {w w' : World} {y : Val} (hx : ∀ x ∈ xs, A x) (hy : ∀ y ∈ ys, B y)
    (hr : tupEqual rec p a b w = (.ok y, w')) (ht : y.truthy = true) : xs = ys := by
  unfold tupEqual at hr
  simp only [ha, hb] at hr
  split at hr
  · rename_i hl
    cases hz : zipEqual rec p xs ys w with
    | mk r w1 =>
      cases r with
      | ok r =>
        have e1 : (zipEqual rec p xs ys >>= fun e => (pure (Val.bool e) : M Val)) w = (.ok (Val.bool r), w1) := bind_ok hz
        rw [catchIf_ok e1] at hr
        have hr : (Except.ok (Val.bool r), w1) = ((.ok y, w') : Except PyErr Val × World) := hr
        simp only [Prod.mk.injEq, Except.ok.injEq] at hr
        obtain ⟨rfl, rfl⟩ := hr
        have : r = true := by simpa [Val.truthy] using ht
        subst this
        exact zipEqual_same h xs ys w w1 hx hy hl hz
      | error e =>
        by_cases hp : (e.kind == .type) = true
        · rw [catchIf_err (bind_err hz) hp] at hr
          cases hr
          cases ht
        · rw [catchIf_pass (bind_err hz) (by simpa using hp)] at hr
          cases hr
  · have e1 : (pure (Val.bool false) : M Val) w = (.ok (Val.bool false), w) := rfl
    rw [catchIf_ok e1] at hr
    cases hr
    cases ht

theorem exact_same {w1 w2 : World} : ∀ (n : Nat) {p : PropSpec}, ExactSeq p → ∀ {a b : Val}, Admits E w1 p.ty a → Admits E w2 p.ty b →
    ∀ {w w' : World} {y : Val}, run E n (.propEqual p a b) w = (.ok y, w') → y.truthy = true → a = b
  | 0, _, _, _, _, _, _, _, _, _, h, _ => by cases h
  | n + 1, p, hp, a, b, ha, hb, w, w', y, h, ht => by
    have h : propEqualBody E (run E n) p a b w = (.ok y, w') := h
    cases hp with
    | scalar hx =>
      have hs : ScalarTy p.ty := by cases hty : p.ty <;> rw [hty] at hx <;> first | exact hx.elim | trivial
      obtain ⟨r, hr⟩ := scalar_equal_ok hs ha hb
      rw [propEqualBody_scalar hs hr w] at h
      cases h
      have : r = true := by simpa [Val.truthy] using ht
      subst this
      cases hty : p.ty <;> rw [hty] at hx ha hb hr <;> first
        | exact hx.elim
        | skip
      all_goals (cases ha; cases hb; simp [scalarEqual, isSame, pyEq, Val.num?, PyFloat.eq] at hr; simp [hr])
    | list hty hi =>
      unfold propEqualBody at h
      rw [hty] at h ha hb
      cases ha with
      | list _ _ _ _ xs hx =>
        cases hb with
        | list _ _ _ _ ys hy =>
          rw [tupEqual_same (fun a b w y w' ha hb h ht => exact_same n hi ha hb h ht) rfl rfl hx hy h ht]
    | tup hty hi =>
      unfold propEqualBody at h
      rw [hty] at h ha hb
      cases ha with
      | tup _ _ _ _ xs hx =>
        cases hb with
        | tup _ _ _ _ ys hy =>
          rw [tupEqual_same (fun a b w y w' ha hb h ht => exact_same n hi ha hb h ht) rfl rfl hx hy h ht]

/-- C77: `equal` of Lists and Tuples of the exact types, at any depth, holds of the same values only. -/
theorem C77_composed_exact {R : Nat → Prop} (hg : F.good = goodFor E F.prop) (hR : ∀ i, R i → ExactSeq (F.prop i)) :
    Links.Spec.ExactEqual (aloneEnv E F.prop F.good) R := by
  intro i a b hi h
  simp only [aloneEnv, decide_eq_true_eq] at h
  obtain ⟨ha, hb, y, hy, ht⟩ := h
  rw [hg] at ha hb
  obtain ⟨_, w1, ha⟩ := ha
  obtain ⟨_, w2, hb⟩ := hb
  exact exact_same _ (hR i hi) ha hb (w := {}) (w' := (run E (depth (F.prop i)) (.propEqual (F.prop i) a b) {}).2)
    (Prod.ext hy rfl) ht

/-! ## What C40 to C42 say, in the main model -/

/-- C77, termination: an assignment to a property does not end in RecursionError, whatever links there are
(also cycles), if there is room for one level per link. -/
theorem C77_terminates (hf : Fits E LE N F) {W : World} {w : LW Val} (h : Sim E F W w) {i : Nat} (hi : F.D i) {v : Val}
    (hv : v ≠ .undef) {n : Nat} (hn : w.links.length + N < n) :
    ∀ e W', run E n (.setattr (F.at_ i).1 (F.at_ i).2 v) W = (.error e, W') → e.kind ≠ .recursion := by
  intro e W' he
  obtain ⟨k, rfl⟩ : ∃ k, n = k + N := ⟨n - N, by omega⟩
  obtain ⟨x, W1, h1, h2, _⟩ := assign_sim hf k i v W w hi hv h (C41_terminates LE i v w (by omega)).1
  rw [h1] at he
  cases he
  exact h2.2 e rfl

/-- C77, in step: linked properties that are in step stay so when one of them is assigned, and all properties
that can be reached through links read as the assignment makes them. -/
theorem C77_in_step {R : Nat → Prop} {G : Nat → Val} (hf : Fits E LE N F) {W : World} {w : LW Val} (h : Sim E F W w)
    (hx : Links.Spec.ExactEqual LE R) (hi : Links.Spec.Idle w) (hd : Links.Spec.DistinctLinks w)
    (hc : Links.Spec.Consistent LE w R G) {a : Nat} {v : Val} (hR : R a) (hD : F.D a) (hu : v ≠ .undef)
    (hv : LE.coerce a v = some (G a)) {n : Nat} (hn : w.links.length + N < n)
    (hs : ∀ l, Links.Spec.Active w l → R l.src → Links.Spec.InStep LE w l) :
    ∃ y W', run E n (.setattr (F.at_ a).1 (F.at_ a).2 v) W = (.ok y, W') ∧
      (∀ m, F.D m → Links.Spec.Reach w a m → ∀ j, run E (j + 1) (.getattr (F.at_ m).1 (F.at_ m).2) W' = (.ok (G m), W')) ∧
      ∀ m, F.D m → stored F W' m = stored F W m ∨ (R m ∧ stored F W' m = some (G m)) := by
  obtain ⟨k, rfl⟩ : ∃ k, n = k + N := ⟨n - N, by omega⟩
  obtain ⟨w', h1, h2, _, h4⟩ := C40_in_step hx hi hd hc hR hv (k := k) (by omega) hs
  obtain ⟨x, W', g1, g2, g3⟩ := assign_sim hf k a v W w hD hu h (by rw [h1]; exact nofun)
  rw [h1] at g2 g3
  obtain ⟨y, rfl⟩ := g2.1.2 rfl
  refine ⟨y, W', g1, fun m hm hr j => ?_, fun m hm => ?_⟩
  · rw [(C77_reads hf g3 hm j).1, h2 m hr]
    rfl
  · rw [(C77_reads hf g3 hm 0).2, (C77_reads hf h hm 0).2]
    exact h4 m

theorem doOps_creates {V : Type} (E : LEnv V) (k : Nat) : ∀ (ls : List (Lnk V)) (w : LW V), (∀ l ∈ ls, l.src ≠ l.tgt) →
    doOps E k (ls.map fun l => .create l false) w = { w with links := w.links ++ ls }
  | [], w, _ => by simp [doOps]
  | l :: ls, w, h => by
    simp only [List.map_cons, doOps]
    have e1 : doOp E k (.create l false) w = { w with links := w.links ++ [l] } := by
      simp [doOp, create, h l (List.mem_cons_self ..)]
    rw [e1, doOps_creates E k ls _ fun l' h' => h l' (List.mem_cons_of_mem _ h')]
    simp

/-- C77, `link(*items)`: make the links between some properties in a state without links and assign to one of
the properties; then all of them read as the new value, and no other property has changed. -/
theorem C77_link (hf : Fits E LE N F) {items : List Nat} (hnd : items.Nodup) (hx : Links.Spec.ExactEqual LE (· ∈ items))
    (changeOnly : Bool) (id : Nat) (hls : ∀ l ∈ groupLinks changeOnly id items, Is F l) {W : World} (hs : Start E F W)
    {a : Nat} (hD : ∀ b ∈ items, F.D b) {v x : Val} (ha : a ∈ items) (hu : v ≠ .undef) (hv : LE.coerce a v = some x)
    (hfix : ∀ b ∈ items, LE.coerce b x = some x) (hch : stored F W a ≠ some x) {n : Nat}
    (hn : (groupLinks (V := Val) changeOnly id items).length + N < n) :
    ∃ y W', run E n (.setattr (F.at_ a).1 (F.at_ a).2 v)
        (after E F n ((groupLinks changeOnly id items).map fun l => .create l false) W) = (.ok y, W') ∧
      (∀ b ∈ items, ∀ j, run E (j + 1) (.getattr (F.at_ b).1 (F.at_ b).2) W' = (.ok x, W')) ∧
      ∀ m, F.D m → m ∉ items → stored F W' m = stored F W m := by
  obtain ⟨k, rfl⟩ : ∃ k, n = k + N := ⟨n - N, by omega⟩
  have h0 := C77_start hs
  have h1 := C77_history hf (k := k) ((groupLinks changeOnly id items).map fun l => .create l false) W _
    (fun o ho => by
      obtain ⟨l, hl, rfl⟩ := List.mem_map.1 ho
      exact hls l hl) h0 (by simp only [start, List.length_nil, List.length_map]; omega)
  have hne : ∀ l ∈ groupLinks (V := Val) changeOnly id items, l.src ≠ l.tgt := by
    intro l hl
    obtain ⟨i, j, hij, p, q, hp, hq, rfl⟩ := group_members.1 hl
    intro e
    dsimp only at e
    subst e
    obtain ⟨hi, _⟩ := List.getElem?_eq_some_iff.1 hp
    exact hij ((List.Nodup.getElem_inj_iff hnd (hi := hi) (hj := (List.getElem?_eq_some_iff.1 hq).1)).1 (by
      rw [(List.getElem?_eq_some_iff.1 hp).2, (List.getElem?_eq_some_iff.1 hq).2]))
  rw [doOps_creates LE k _ _ hne] at h1
  generalize after E F (k + N) _ W = W1 at h1 ⊢
  obtain ⟨w', g1, g2, g3⟩ := C40_link (E := LE) (w := { start F W with links := (start F W).links ++ groupLinks changeOnly id items })
    changeOnly id hnd hx (fun _ => rfl) rfl (fun _ => rfl) ha hv hfix hch (k := k) (by
      simp only [start, List.nil_append]; omega)
  obtain ⟨y, W', f1, f2, f3⟩ := assign_sim hf k a v W1 _ (hD a ha) hu h1 (by rw [g1]; exact nofun)
  rw [g1] at f2 f3
  obtain ⟨y, rfl⟩ := f2.1.2 rfl
  refine ⟨y, W', f1, fun b hb j => ?_, fun m hm hm' => ?_⟩
  · rw [(C77_reads hf f3 (hD b hb) j).1, g2 b hb]
    rfl
  · rw [(C77_reads hf f3 hm 0).2, g3 m hm']
    rfl

/-- C77, `unlink`: after a link is unlinked every history that does not relink it leaves all properties with the
values they have if the link was never made. -/
theorem C77_unlinked (hf : Fits E LE N F) {W W0 : World} {w : LW Val} (d : Nat) (h : Sim E F W w)
    (h0 : Sim E F W0 (Links.Spec.without d w)) {k : Nat} (os : List (LOp Val)) (ho : ∀ o ∈ os, WfOp F o)
    (hd : ∀ o ∈ os, LeavesAlone d o) (hk : w.links.length + os.length + 1 < k) {i : Nat} (hi : F.D i) :
    stored F (after E F (k + N) (.unlink d :: os) W) i = stored F (after E F (k + N) (.unlink d :: os) W0) i := by
  have h1 := C77_history hf (k := k) (.unlink d :: os) W w (fun o hm => by
    rcases List.mem_cons.1 hm with rfl | hm
    · exact trivial
    · exact ho o hm) h (by simp only [List.length_cons]; omega)
  have hle : (Links.Spec.without d w).links.length ≤ w.links.length := List.length_filter_le _ _
  have h2 := C77_history hf (k := k) (.unlink d :: os) W0 _ (fun o hm => by
    rcases List.mem_cons.1 hm with rfl | hm
    · exact trivial
    · exact ho o hm) h0 (by simp only [List.length_cons]; omega)
  rw [(C77_reads hf h1 hi 0).2, (C77_reads hf h2 hi 0).2]
  simp only [doOps, doOp]
  rw [C42_unlinked d k os w hd]
  rfl

/-! ## An example -/

/-- Three Integer properties. -/
def c77Name (i : Nat) : PyStr := if i = 0 then s% "a" else if i = 1 then s% "b" else s% "c"

def c77Prop : PropSpec := .mk true none none .undef (.integer false none none)

/-- The link objects of `link((x, 'a'), (x, 'b'), (x, 'c'))`. -/
def c77Tab (d : Nat) : DLink := ⟨d, d, 0, c77Name (d / 3), 0, c77Name (d % 3), .ok, true⟩

def c77Env : Env := { demoEnv with
  classes := fun _ => { (demoEnv.classes 0) with
    props := [(s% "a", .mutable c77Prop), (s% "b", .mutable c77Prop), (s% "c", .mutable c77Prop)], hook := none }
  fn := fun f args => listenerProg (c77Tab f) args }

def c77Frame : Spec.Frame where
  D i := i < 3
  at_ i := (0, c77Name i)
  prop _ := c77Prop
  good := goodFor c77Env fun _ => c77Prop
  tab := c77Tab

def c77World : World :=
  { objs := [{ cls := 0, backend := [(s% "a", .int 1)] }], user := .tup [.list [], .list []] }

theorem c77_fits : Fits c77Env (plainEnv c77Env c77Frame.prop c77Frame.good) 1 c77Frame where
  pos := Nat.le_refl 1
  none_ := rfl
  behaves i hi := C77_plain (fun _ => ⟨trivial, nofun⟩) rfl hi
  apart i j hi hj h := by
    have h : c77Name i = c77Name j := congrArg Prod.snd h
    change i < 3 at hi
    change j < 3 at hj
    have e : ∀ i < 3, ∀ j < 3, c77Name i = c77Name j → i = j := by decide
    exact e i hi j hj h
  code d args := rfl
  ids d := rfl

theorem c77_start : Start c77Env c77Frame c77World where
  quar := rfl
  user := rfl
  holds i hi := by
    refine ⟨_, rfl, ?_, rfl, by simp, fun v hv => ?_⟩
    · change i < 3 at hi
      have e : ∀ i < 3, lookupS (c77Name i) (c77Env.classes 0).props = some (.mutable c77Prop) := by
        intro i hi
        match i, hi with
        | 0, _ => rfl
        | 1, _ => rfl
        | 2, _ => rfl
      exact e i hi
    · have e : ∀ i v, lookupS (c77Name i) [(s% "a", Val.int 1)] = some v → v = .int 1 := by
        intro i v h
        simp only [lookupS] at h
        split at h
        · cases h; rfl
        · cases h
      cases e i v hv
      exact ⟨nofun, {}, .integer _ _ _ _ ⟨nofun, nofun⟩⟩

/-- `x = X(a=1); link((x,'a'), (x,'b'), (x,'c'), update_now=False, change_only=True); x.b = 5`: all three are 5. -/
theorem C77_example : ∃ y W', run c77Env 8 (.setattr 0 (s% "b") (.int 5))
      (after c77Env c77Frame 8 ((groupLinks true 0 [0, 1, 2]).map fun l => .create l false) c77World) = (.ok y, W') ∧
    ∀ b ∈ [0, 1, 2], ∀ j, run c77Env (j + 1) (.getattr 0 (c77Name b)) W' = (.ok (.int 5), W') := by
  have hc : ∀ b, (plainEnv c77Env c77Frame.prop c77Frame.good).coerce b (.int 5) = some (.int 5) := by
    intro b
    with_unfolding_all rfl
  obtain ⟨y, W', h1, h2, _⟩ := C77_link c77_fits (items := [0, 1, 2]) (by decide)
    (C77_exact rfl fun i _ => trivial) true 0 (by
      intro l hl
      obtain ⟨i, j, hij, p, q, hp, hq, rfl⟩ := group_members.1 hl
      have hi : i < 3 := (List.getElem?_eq_some_iff.1 hp).1
      have hj : j < 3 := (List.getElem?_eq_some_iff.1 hq).1
      have ep : ∀ i < 3, [0, 1, 2][i]? = some i := by decide
      rw [ep i hi] at hp
      rw [ep j hj] at hq
      cases hp; cases hq
      have e1 : (0 + i * 3 + j) / 3 = i := by omega
      have e2 : (0 + i * 3 + j) % 3 = j := by omega
      refine ⟨⟨hi, ?_⟩, ⟨hj, ?_⟩, rfl, fun x hx => ⟨rfl, hx⟩⟩
      · show (0, c77Name i) = (0, c77Name ((0 + i * 3 + j) / 3))
        rw [e1]
      · show (0, c77Name j) = (0, c77Name ((0 + i * 3 + j) % 3))
        rw [e2]) c77_start (a := 1) (by
      intro b hb
      show b < 3
      simp at hb
      omega) (v := .int 5) (x := .int 5) (by decide) nofun (hc 1) (fun b _ => hc b)
    (show (none : Option Val) ≠ some (.int 5) from nofun) (n := 8) (by decide)
  exact ⟨y, W', h1, h2⟩

/-! ## An example with containers -/

/-- A List of Integers. -/
def c77ListProp : PropSpec := .mk true none none .undef (.seq .list (.mk true none none .undef (.integer true none none)) none none true)

def c77ListEnv : Env := { demoEnv with
  classes := fun _ => { (demoEnv.classes 0) with
    props := [(s% "a", .mutable c77ListProp), (s% "b", .mutable c77ListProp), (s% "c", .mutable c77ListProp)], hook := none }
  fn := fun f args => listenerProg (c77Tab f) args }

def c77ListFrame : Spec.Frame where
  D i := i < 3
  at_ i := (0, c77Name i)
  prop _ := c77ListProp
  good := goodFor c77ListEnv fun _ => c77ListProp
  tab := c77Tab

theorem c77_list_fits : Fits c77ListEnv (aloneEnv c77ListEnv c77ListFrame.prop c77ListFrame.good) 2 c77ListFrame where
  pos := by decide
  none_ := rfl
  behaves i hi := C77_composed (by
      show ¬ Stirs c77ListProp
      rintro (h | h | ⟨h, h'⟩ | ⟨h, _⟩ | ⟨h, _⟩ | ⟨h, _, _⟩) <;> cases h
      rcases h' with h | h | ⟨h, _⟩ | ⟨h, _⟩ | ⟨h, _⟩ | ⟨h, _, _⟩ <;> cases h) (by
      show ¬ Exc.Mixes c77ListProp
      rintro (⟨h, _, _⟩ | ⟨h, h'⟩ | ⟨h, _⟩) <;> cases h
      rcases h' with ⟨h, _, _⟩ | ⟨h, _⟩ | ⟨h, _⟩ <;> cases h) rfl (show depth c77ListProp ≤ 2 by decide)
  apart i j hi hj h := by
    have h : c77Name i = c77Name j := congrArg Prod.snd h
    change i < 3 at hi
    change j < 3 at hj
    have e : ∀ i < 3, ∀ j < 3, c77Name i = c77Name j → i = j := by decide
    exact e i hi j hj h
  code d args := rfl
  ids d := rfl

def c77ListWorld : World :=
  { objs := [{ cls := 0, backend := [(s% "a", .list [.int 1])] }], user := .tup [.list [], .list []] }

theorem c77_list_start : Start c77ListEnv c77ListFrame c77ListWorld where
  quar := rfl
  user := rfl
  holds i hi := by
    refine ⟨_, rfl, ?_, rfl, by simp, fun v hv => ?_⟩
    · change i < 3 at hi
      have e : ∀ i < 3, lookupS (c77Name i) (c77ListEnv.classes 0).props = some (.mutable c77ListProp) := by
        intro i hi
        match i, hi with
        | 0, _ => rfl
        | 1, _ => rfl
        | 2, _ => rfl
      exact e i hi
    · have e : ∀ i v, lookupS (c77Name i) [(s% "a", Val.list [.int 1])] = some v → v = .list [.int 1] := by
        intro i v h
        simp only [lookupS] at h
        split at h
        · cases h; rfl
        · cases h
      cases e i v hv
      exact ⟨nofun, {}, .list _ _ _ _ _ fun x hx => by
        rw [List.mem_singleton] at hx
        subst hx
        exact .integer _ _ _ _ ⟨nofun, nofun⟩⟩

/-- `x = X(a=[1]); link((x,'a'), (x,'b'), (x,'c'), update_now=False, change_only=True); x.b = (1, 2.0)`: all three are `[1, 2]`. -/
theorem C77_composed_example : ∃ y W', run c77ListEnv 9 (.setattr 0 (s% "b") (.tup [.int 1, .float (.fin 2)]))
      (after c77ListEnv c77ListFrame 9 ((groupLinks true 0 [0, 1, 2]).map fun l => .create l false) c77ListWorld) = (.ok y, W') ∧
    ∀ b ∈ [0, 1, 2], ∀ j, run c77ListEnv (j + 1) (.getattr 0 (c77Name b)) W' = (.ok (.list [.int 1, .int 2]), W') := by
  have hc : ∀ b, (aloneEnv c77ListEnv c77ListFrame.prop c77ListFrame.good).coerce b (.list [.int 1, .int 2]) = some (.list [.int 1, .int 2]) := by
    intro b
    with_unfolding_all rfl
  obtain ⟨y, W', h1, h2, _⟩ := C77_link c77_list_fits (items := [0, 1, 2]) (by decide)
    (C77_composed_exact rfl fun i _ => .list rfl (.scalar trivial)) true 0 (by
      intro l hl
      obtain ⟨i, j, hij, p, q, hp, hq, rfl⟩ := group_members.1 hl
      have hi : i < 3 := (List.getElem?_eq_some_iff.1 hp).1
      have hj : j < 3 := (List.getElem?_eq_some_iff.1 hq).1
      have ep : ∀ i < 3, [0, 1, 2][i]? = some i := by decide
      rw [ep i hi] at hp
      rw [ep j hj] at hq
      cases hp; cases hq
      have e1 : (0 + i * 3 + j) / 3 = i := by omega
      have e2 : (0 + i * 3 + j) % 3 = j := by omega
      refine ⟨⟨hi, ?_⟩, ⟨hj, ?_⟩, rfl, fun x hx => ⟨rfl, hx⟩⟩
      · show (0, c77Name i) = (0, c77Name ((0 + i * 3 + j) / 3))
        rw [e1]
      · show (0, c77Name j) = (0, c77Name ((0 + i * 3 + j) % 3))
        rw [e2]) c77_list_start (a := 1) (by
      intro b hb
      show b < 3
      simp at hb
      omega) (v := .tup [.int 1, .float (.fin 2)]) (x := .list [.int 1, .int 2]) (by decide) nofun (by with_unfolding_all rfl) (fun b _ => hc b)
    (show (none : Option Val) ≠ some (.list [.int 1, .int 2]) from nofun) (n := 9) (by decide)
  exact ⟨y, W', h1, h2⟩

end Verif.LinkProg
