import Verif.Lemmas.Monad
import Verif.Core.Interp

/-!
# The phases of a successful construction
-/

namespace Verif

/-- The state after allocation. -/
def allocated (E : Env) (c : ClsId) (w : World) : World :=
  { w with objs := w.objs ++ [{ cls := c, listeners := initListeners (E.classes c) }] }

theorem construct_phases {E : Env} {rec : Rec} {c : ClsId} {kw : List (PyStr × Val)} {w w' : World}
    {v : Val} (h : constructBody E rec c kw w = (.ok v, w')) :
    v = .obj w.objs.length ∧ ∃ w2 w3 x,
      forML (gettableDefault E rec c w.objs.length) (E.classes c).props (allocated E c w)
        = (.ok (), w2) ∧
      withDisabled Quar.all (rec (.reset w.objs.length none)) w2 = (.ok x, w3) ∧
      initBody E rec w.objs.length (E.classes c) kw w3 = (.ok (), w') := by
  unfold constructBody at h
  obtain ⟨_, w1, h1, g⟩ := bind_ok_inv h
  clear h
  have e1 : w1 = w := by
    unfold raiseWhen at h1
    split at h1
    · cases h1
    · cases h1; rfl
  subst e1
  obtain ⟨r, w1', ha, g1⟩ := bind_ok_inv g
  cases ha
  obtain ⟨_, w2, h2, g2⟩ := bind_ok_inv g1
  obtain ⟨x, w3, h3, g3⟩ := bind_ok_inv g2
  obtain ⟨_, w4, h4, g4⟩ := bind_ok_inv g3
  cases g4
  exact ⟨rfl, w2, w3, x, h2, h3, h4⟩

/-- The state in which the keywords are processed. -/
def initialising (r : Nat) (w : World) : World :=
  w.setObj r (fun o => { o with gv := some true, errs := some [] })

theorem init_phases {E : Env} {rec : Rec} {r : Nat} {c : ClassDef} {kw : List (PyStr × Val)}
    {w w' : World} (h : initBody E rec r c kw w = (.ok (), w')) :
    ∃ nv w2 w3, foldML (initStep rec r c) none kw (initialising r w) = (.ok nv, w2) ∧
      raiseCollected E rec r nv w2 = (.ok (), w3) ∧ w' = clearValidating r w3 := by
  unfold initBody at h
  obtain ⟨_, w1, h1, g⟩ := bind_ok_inv h
  clear h
  have e1 : w1 = w := by
    unfold raiseWhen at h1
    split at h1
    · cases h1
    · cases h1; rfl
  subst e1
  rw [bind_ok (modObj_apply _ _ _), fin_apply] at g
  obtain ⟨g1, g2⟩ := Prod.mk.inj g
  generalize hm : (foldML (initStep rec r c) none kw >>= raiseCollected E rec r)
    (w1.setObj r fun o => { o with gv := some true, errs := some [] }) = res at g1 g2
  obtain ⟨x, w3⟩ := res
  dsimp only at g1 g2
  subst g1 g2
  obtain ⟨nv, w2, h2, h3⟩ := bind_ok_inv hm
  exact ⟨nv, w2, w3, h2, h3, rfl⟩

theorem foldML_ok_mem {α β : Type} {f : β → α → M β} : ∀ {xs : List α} {b b' : β} {w w' : World},
    foldML f b xs w = (.ok b', w') → ∀ x ∈ xs, ∃ b1 w1 b2 w2, f b1 x w1 = (.ok b2, w2)
  | [], _, _, _, _, _, x, hx => by cases hx
  | y :: ys, b, b', w, w', h, x, hx => by
      obtain ⟨b1, w1, h1, h2⟩ := bind_ok_inv h
      rcases List.mem_cons.1 hx with rfl | hx
      · exact ⟨b, w, b1, w1, h1⟩
      · exact foldML_ok_mem h2 x hx

end Verif
