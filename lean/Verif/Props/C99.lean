import Verif.Spec.DocText
import Verif.Spec.Docs
import Verif.Props.C36
import Verif.Props.C90
import Verif.Props.C97

/-!
# C99: documentation text of properties and classes
-/

namespace Verif.DocText
open Spec Spec.DocText

/-! ## The link to the class -/

def go (w s : PyStr) : Option PyStr := format w (replace s (s% ":class:`") (s% "{info} of :class:`"))

theorem replace_clean {old new : PyStr} {o : Char} {os : PyStr} (ho : old = o :: os) {a : PyStr}
    (ha : ∀ c ∈ a, c ≠ o) (s : PyStr) : replaceGo old new 0 (a ++ s) = a ++ replaceGo old new 0 s := by
  induction a with
  | nil => rfl
  | cons c a ih =>
    rw [List.cons_append, replaceGo, ih (fun d hd => ha d (by simp [hd]))]
    rw [if_neg]
    · rfl
    · subst ho
      simp only [List.isPrefixOf, Bool.and_eq_true, beq_iff_eq, not_and]
      exact fun e => absurd e.symm (ha c (by simp))

theorem replace_mark (new s : PyStr) :
    replaceGo (s% ":class:`") new 0 (s% ":class:`" ++ s) = new ++ replaceGo (s% ":class:`") new 0 s := by
  show replaceGo (s% ":class:`") new 0 (':' :: 'c' :: 'l' :: 'a' :: 's' :: 's' :: ':' :: '`' :: s) = _
  rw [replaceGo]
  rw [if_pos (by simp [List.isPrefixOf])]
  rfl

theorem format_char {w : PyStr} {c : Char} (h1 : c ≠ '{') (h2 : c ≠ '}') (s : PyStr) :
    format w (c :: s) = (format w s).map (c :: ·) := by
  rw [format]
  all_goals simp_all

theorem format_clean {w : PyStr} {a : PyStr} (ha : ∀ c ∈ a, c ≠ '{' ∧ c ≠ '}') (s : PyStr) :
    format w (a ++ s) = (format w s).map (a ++ ·) := by
  induction a with
  | nil => simp
  | cons c a ih =>
    have hc := ha c (by simp)
    rw [List.cons_append, format_char hc.1 hc.2, ih (fun d hd => ha d (by simp [hd])), Option.map_map]
    rfl

theorem format_field (w s : PyStr) : format w (s% "{info}" ++ s) = (format w s).map (w ++ ·) := by
  show format w ('{' :: 'i' :: 'n' :: 'f' :: 'o' :: '}' :: s) = _
  rw [format]

theorem go_clean {w a : PyStr} (ha : Without (s% "{}:") a) (s : PyStr) : go w (a ++ s) = (go w s).map (a ++ ·) := by
  unfold go replace
  rw [replace_clean (o := ':') rfl (fun c hc e => ha c hc (by rw [e]; decide)), format_clean]
  intro c hc
  exact ⟨fun e => ha c hc (by rw [e]; decide), fun e => ha c hc (by rw [e]; decide)⟩

theorem go_mark (w s : PyStr) :
    go w (s% ":class:`" ++ s) = (go w s).map (fun t => w ++ (s% " of " ++ (s% ":class:`" ++ t))) := by
  unfold go replace
  rw [replace_mark]
  rw [show (s% "{info} of :class:`" ++ replaceGo (s% ":class:`") (s% "{info} of :class:`") 0 s : PyStr) =
    s% "{info}" ++ (s% " of :class:`" ++ replaceGo (s% ":class:`") (s% "{info} of :class:`") 0 s) from rfl]
  rw [format_field, format_clean (a := s% " of :class:`") (by decide), Option.map_map]
  congr 1

theorem go_nil (w : PyStr) : go w [] = some [] := rfl

/-- A leaf whose parts have none of the characters of the markup. -/
structure Clean (l : Leaf) : Prop where
  within : ∀ x ∈ l.within, Without (s% "{}:`") x
  cls : Without (s% "{}:` <") l.cls
  pref : Without (s% "{}:`") l.pref
  suffix : l.suffix = [] ∨ l.suffix = s% " instance or UID"

theorem Without.mono {a b s : PyStr} (h : Without a s) (hs : ∀ c ∈ b, c ∈ a) : Without b s :=
  fun c hc hb => h c hc (hs c hb)

theorem without_append {a s t : PyStr} (hs : Without a s) (ht : Without a t) : Without a (s ++ t) := by
  intro c hc
  rcases List.mem_append.1 hc with h | h
  exacts [hs c h, ht c h]

theorem Clean.pre {l : Leaf} (h : Clean l) : Without (s% "{}:`") (l.within.flatMap (· ++ s% " of ")) := by
  intro c hc
  obtain ⟨x, hx, hm⟩ := List.mem_flatMap.1 hc
  rcases List.mem_append.1 hm with hm | hm
  · exact h.within x hx c hm
  · exact (by decide : ∀ c ∈ (s% " of " : PyStr), c ∉ (s% "{}:`" : PyStr)) c hm

theorem Clean.mid {l : Leaf} (h : Clean l) :
    Without (s% "{}:`") (l.cls ++ s% " <" ++ l.pref ++ s% "." ++ l.cls ++ s% ">") := by
  have hc : Without (s% "{}:`") l.cls := Without.mono h.cls (by decide)
  refine without_append (without_append (without_append (without_append (without_append hc ?_) h.pref) ?_) hc) ?_
  all_goals exact (by decide)

theorem Clean.end {l : Leaf} (h : Clean l) : Without (s% "{}:") ('`' :: l.suffix) := by
  rcases h.suffix with e | e <;> rw [e] <;> exact (by decide)

theorem Clean.put {l : Leaf} (h : Clean l) {w : PyStr} (hw : Without (s% "{}:`") w) : Clean (l.put w) := by
  refine ⟨fun x hx => ?_, h.cls, h.pref, h.suffix⟩
  rcases List.mem_append.1 hx with hx | hx
  · exact h.within x hx
  · rw [List.mem_singleton.1 hx]; exact hw

theorem go_leaf {w : PyStr} {l : Leaf} (h : Clean l) (s : PyStr) :
    go w (l.text ++ s) = (go w s).map ((l.put w).text ++ ·) := by
  unfold Leaf.text
  rw [List.append_assoc, List.append_assoc, List.append_assoc,
    go_clean (Without.mono h.pre (by decide)), go_mark,
    go_clean (Without.mono h.mid (by decide)), go_clean h.end, Option.map_map, Option.map_map, Option.map_map]
  refine congrArg (fun f => Option.map f (go w s)) (funext fun t => ?_)
  simp [Leaf.put, List.flatMap_append, List.append_assoc]

theorem go_commas {w : PyStr} : ∀ {ls : List Leaf}, (∀ l ∈ ls, Clean l) →
    go w (commas (ls.map Leaf.text)) = some (commas ((ls.map (Leaf.put w)).map Leaf.text))
  | [], _ => rfl
  | [l], h => by
      have := go_leaf (w := w) (h l (by simp)) []
      rw [List.append_nil, go_nil] at this
      simpa [commas] using this
  | l :: m :: ls, h => by
      show go w (l.text ++ s% ", " ++ commas ((m :: ls).map Leaf.text)) = _
      rw [List.append_assoc, go_leaf (h l (by simp)), go_clean (a := s% ", ") (by decide),
        go_commas (ls := m :: ls) (fun x hx => h x (by simp [hx]))]
      simp [commas, List.append_assoc]

theorem commas_join : ∀ l : List PyStr, Msg.join (s% ", ") l = commas l
  | [] => rfl
  | [_] => rfl
  | x :: y :: l => by rw [Msg.join, commas, commas_join (y :: l)]; simp

theorem commas_append : ∀ {a b : List PyStr}, a ≠ [] → b ≠ [] → commas (a ++ b) = commas a ++ s% ", " ++ commas b
  | [], _, h, _ => absurd rfl h
  | [x], y :: b, _, _ => rfl
  | x :: y :: a, b, _, hb => by
      show x ++ s% ", " ++ commas ((y :: a) ++ b) = _
      rw [commas_append (a := y :: a) (by simp) hb]
      simp [commas, List.append_assoc]

theorem leaves_seq (w : PyStr) (p : DProp) : leaves (.seq w p) = (leaves p).map (Leaf.put w) := by rw [leaves]
theorem leaves_union (ps : List DProp) : leaves (.union ps) = leavesAll ps := by rw [leaves]

mutual
theorem text_aux : ∀ {p : DProp}, Plain p → sphinxClass p = some (commas ((leaves p).map Leaf.text)) ∧
    leaves p ≠ [] ∧ ∀ l ∈ leaves p, Clean l
  | .plain c p, h => by
      unfold Plain at h
      refine ⟨?_, by simp [leaves], fun l hl => ?_⟩
      · simp [sphinxClass, leaves, commas, Leaf.text, link]
      · simp only [leaves, List.mem_singleton] at hl
        subst hl
        exact ⟨fun x hx => (by cases hx), h.1, h.2, Or.inl rfl⟩
  | .inst c p, h => by
      unfold Plain at h
      refine ⟨?_, by simp [leaves], fun l hl => ?_⟩
      · simp [sphinxClass, leaves, commas, Leaf.text, link]
      · simp only [leaves, List.mem_singleton] at hl
        subst hl
        exact ⟨fun x hx => (by cases hx), h.1, h.2, Or.inl rfl⟩
  | .pointer c p, h => by
      unfold Plain at h
      refine ⟨?_, by simp [leaves], fun l hl => ?_⟩
      · simp [sphinxClass, leaves, commas, Leaf.text, link]
      · simp only [leaves, List.mem_singleton] at hl
        subst hl
        exact ⟨fun x hx => (by cases hx), h.1, h.2, Or.inr rfl⟩
  | .seq w p, h => by
      unfold Plain at h
      obtain ⟨h1, h2, h3⟩ := text_aux h.2
      rw [leaves_seq]
      refine ⟨?_, by simpa using h2, fun l hl => ?_⟩
      · rw [sphinxClass, h1]
        exact go_commas h3
      · obtain ⟨m, hm, rfl⟩ := List.mem_map.1 hl
        exact (h3 m hm).put h.1
  | .union ps, h => by
      unfold Plain at h
      obtain ⟨ts, h1, h2, h3⟩ := texts_aux h.2
      rw [leaves_union]
      obtain ⟨h4, h5⟩ := h3 h.1
      refine ⟨?_, h5, h2⟩
      rw [sphinxClass, h1, Option.map_some, commas_join, h4]
theorem texts_aux : ∀ {ps : List DProp}, PlainAll ps → ∃ ts, sphinxClasses ps = some ts ∧
    (∀ l ∈ leavesAll ps, Clean l) ∧
    (ps ≠ [] → commas ts = commas ((leavesAll ps).map Leaf.text) ∧ leavesAll ps ≠ [])
  | [], _ => ⟨[], by rw [sphinxClasses], fun l hl => (by rw [leavesAll] at hl; cases hl), fun h => absurd rfl h⟩
  | p :: ps, h => by
      unfold PlainAll at h
      obtain ⟨h1, h2, h3⟩ := text_aux h.1
      obtain ⟨ts, h4, h5, h6⟩ := texts_aux h.2
      refine ⟨commas ((leaves p).map Leaf.text) :: ts, ?_, fun l hl => ?_, fun _ => ⟨?_, ?_⟩⟩
      · rw [sphinxClasses, h1, h4]; rfl
      · rw [leavesAll] at hl
        rcases List.mem_append.1 hl with hl | hl
        exacts [h3 l hl, h5 l hl]
      · rw [leavesAll]
        cases ps with
        | nil =>
          rw [sphinxClasses] at h4
          cases h4
          rw [leavesAll, List.append_nil]
          rfl
        | cons q ps =>
          obtain ⟨h7, h8⟩ := h6 (by simp)
          cases ts with
          | nil =>
            rw [sphinxClasses] at h4
            cases hq : sphinxClass q with
            | none => rw [hq] at h4; cases h4
            | some t => rw [hq] at h4; cases hz : sphinxClasses ps with
              | none => rw [hz] at h4; cases h4
              | some z => rw [hz] at h4; cases h4
          | cons t ts =>
            rw [commas, h7, List.map_append, commas_append (by simpa using h2) (by simpa using h8)]
      · rw [leavesAll]
        exact fun e => h2 (List.append_eq_nil_iff.1 e).1
end

/-- C99: the text about the type of a property names, separated by commas, every class at a
leaf of its declaration, each with the containers around it, the innermost first. -/
theorem C99_type {p : DProp} (h : Plain p) : sphinxClass p = some (commas ((leaves p).map Leaf.text)) :=
  (text_aux h).1

mutual
theorem plain_spec {E : Env} {mod : ClsId → PyStr}
    (hn : ∀ c, Without (s% "{}:` <") (E.classes c).name ∧ Without (s% "{}:`") (mod c)) :
    ∀ {p : PropSpec}, Filled p → Plain (ofSpec E mod p) ∧ ∀ l ∈ leaves (ofSpec E mod p), ∀ w ∈ l.within, Usual w
  | .mk _ _ _ _ ty, h => by
      unfold Filled at h
      rw [ofSpec]
      exact plain_ty hn h
theorem plain_ty {E : Env} {mod : ClsId → PyStr}
    (hn : ∀ c, Without (s% "{}:` <") (E.classes c).name ∧ Without (s% "{}:`") (mod c)) :
    ∀ {ty : PropTy}, FilledTy ty → Plain (ofTy E mod ty) ∧ ∀ l ∈ leaves (ofTy E mod ty), ∀ w ∈ l.within, Usual w
  | .any, _ | .boolean _, _ | .integer .., _ | .float .., _ | .complex _, _ | .string .., _ | .choice .., _
  | .color, _ | .datetime, _ | .uuid, _ | .dict .., _ => by
      rw [ofTy]
      refine ⟨?_, fun l hl w hw => ?_⟩
      · unfold Plain
        exact (by decide)
      · simp only [leaves, List.mem_singleton] at hl
        subst hl
        cases hw
  | .inst c, _ => by
      rw [ofTy]
      refine ⟨?_, fun l hl w hw => ?_⟩
      · unfold Plain
        exact hn c
      · simp only [leaves, List.mem_singleton] at hl
        subst hl
        cases hw
  | .seq k item _ _ _, h => by
      unfold FilledTy at h
      obtain ⟨h1, h2⟩ := plain_spec hn h
      rw [ofTy]
      refine ⟨?_, fun l hl w hw => ?_⟩
      · unfold Plain
        exact ⟨by cases k <;> exact (by decide), h1⟩
      · rw [leaves_seq] at hl
        obtain ⟨m, hm, rfl⟩ := List.mem_map.1 hl
        rcases List.mem_append.1 hw with hw | hw
        · exact h2 m hm w hw
        · rw [List.mem_singleton.1 hw]
          cases k
          exacts [Or.inl rfl, Or.inr (Or.inl rfl), Or.inr (Or.inr rfl)]
  | .union ps _, h => by
      unfold FilledTy at h
      obtain ⟨h1, h2, h3⟩ := plain_specs hn h.2
      rw [ofTy]
      refine ⟨?_, fun l hl => ?_⟩
      · unfold Plain
        exact ⟨fun e => h.1 (h3 e), h1⟩
      · rw [leaves_union] at hl
        exact h2 l hl
theorem plain_specs {E : Env} {mod : ClsId → PyStr}
    (hn : ∀ c, Without (s% "{}:` <") (E.classes c).name ∧ Without (s% "{}:`") (mod c)) :
    ∀ {ps : List PropSpec}, FilledAll ps → PlainAll (ofSpecs E mod ps) ∧
      (∀ l ∈ leavesAll (ofSpecs E mod ps), ∀ w ∈ l.within, Usual w) ∧ (ofSpecs E mod ps = [] → ps = [])
  | [], _ => by
      rw [ofSpecs]
      refine ⟨?_, fun l hl => ?_, fun _ => rfl⟩
      · unfold PlainAll; trivial
      · rw [leavesAll] at hl; cases hl
  | p :: ps, h => by
      unfold FilledAll at h
      obtain ⟨h1, h2⟩ := plain_spec hn h.1
      obtain ⟨h3, h4, _⟩ := plain_specs hn h.2
      rw [ofSpecs]
      refine ⟨?_, fun l hl => ?_, fun e => by cases e⟩
      · unfold PlainAll; exact ⟨h1, h3⟩
      · rw [leavesAll] at hl
        rcases List.mem_append.1 hl with hl | hl
        exacts [h2 l hl, h4 l hl]
end

mutual
theorem leaves_spec {E : Env} {mod : ClsId → PyStr} : ∀ (p : PropSpec), leaves (ofSpec E mod p) = declared E mod p
  | .mk _ _ _ _ ty => by
      rw [ofSpec, declared]
      exact leaves_ty ty
theorem leaves_ty {E : Env} {mod : ClsId → PyStr} : ∀ (ty : PropTy), leaves (ofTy E mod ty) = declaredTy E mod ty
  | .any | .boolean _ | .integer .. | .float .. | .complex _ | .string .. | .choice .. | .color | .datetime | .uuid
  | .dict .. | .inst _ => by
      rw [ofTy, declaredTy, leaves]
  | .seq k item _ _ _ => by
      rw [ofTy, declaredTy, leaves, leaves_spec item]
      cases k <;> rfl
  | .union ps _ => by
      rw [ofTy, declaredTy, leaves]
      exact leaves_specs ps
theorem leaves_specs {E : Env} {mod : ClsId → PyStr} :
    ∀ (ps : List PropSpec), leavesAll (ofSpecs E mod ps) = declaredAll E mod ps
  | [] => by rw [ofSpecs, declaredAll, leavesAll]
  | p :: ps => by rw [ofSpecs, declaredAll, leavesAll, leaves_spec p, leaves_specs ps]
end

/-- C99: so it is for the declarations of the core model. -/
theorem C99_declared {E : Env} {mod : ClsId → PyStr} {p : PropSpec}
    (hn : ∀ c, Without (s% "{}:` <") (E.classes c).name ∧ Without (s% "{}:`") (mod c)) (h : Filled p) :
    sphinxClass (ofSpec E mod p) = some (commas ((declared E mod p).map Leaf.text)) := by
  rw [C99_type (plain_spec hn h).1, leaves_spec]

theorem words_inj : ∀ {a b : List PyStr}, (∀ w ∈ a, Usual w) → (∀ w ∈ b, Usual w) →
    a.flatMap (· ++ s% " of ") ++ s% ":class:" = b.flatMap (· ++ s% " of ") ++ s% ":class:" → a = b
  | [], [], _, _, _ => rfl
  | [], w :: b, _, hb, h => by
      rcases hb w (by simp) with e | e | e <;> subst e <;> simp at h
  | w :: a, [], ha, _, h => by
      rcases ha w (by simp) with e | e | e <;> subst e <;> simp at h
  | w :: a, v :: b, ha, hb, h => by
      have hwv : w = v ∧ a.flatMap (· ++ s% " of ") ++ s% ":class:" = b.flatMap (· ++ s% " of ") ++ s% ":class:" := by
        rcases ha w (by simp) with e | e | e <;> rcases hb v (by simp) with e' | e' | e' <;> subst e <;> subst e' <;>
          simp at h ⊢ <;> exact h
      rw [hwv.1, words_inj (fun w hw => ha w (by simp [hw])) (fun w hw => hb w (by simp [hw])) hwv.2]

theorem leaf_inj {l m : Leaf} (hl : Clean l) (hm : Clean m) (hlu : ∀ w ∈ l.within, Usual w)
    (hmu : ∀ w ∈ m.within, Usual w) {s t : PyStr} (hs : s = [] ∨ ∃ s', s = ',' :: s') (ht : t = [] ∨ ∃ t', t = ',' :: t')
    (h : l.text ++ s = m.text ++ t) : l = m ∧ s = t := by
  have tick : ∀ {a : PyStr}, Without (s% "{}:`") a → ∀ c ∈ a, c ≠ '`' := fun ha c hc e => ha c hc (by rw [e]; decide)
  have e1 : ∀ (l : Leaf) (s : PyStr), l.text ++ s = (l.within.flatMap (· ++ s% " of ") ++ s% ":class:") ++
      '`' :: ((l.cls ++ s% " <" ++ l.pref ++ s% "." ++ l.cls ++ s% ">") ++ '`' :: (l.suffix ++ s)) := by
    intro l s
    simp [Leaf.text, List.append_assoc]
  rw [e1, e1] at h
  have hpre : ∀ {l : Leaf}, Clean l → ∀ c ∈ l.within.flatMap (· ++ s% " of ") ++ s% ":class:", c ≠ '`' := by
    intro l hl c hc
    rcases List.mem_append.1 hc with hc | hc
    · exact tick hl.pre c hc
    · exact (by decide : ∀ c ∈ (s% ":class:" : PyStr), c ≠ '`') c hc
  obtain ⟨h1, h2⟩ := Msg.split_first (hpre hl) (hpre hm) h
  obtain ⟨h3, h4⟩ := Msg.split_first (tick hl.mid) (tick hm.mid) h2
  have hw := words_inj hlu hmu h1
  have sp : ∀ {l : Leaf}, Clean l → ∀ c ∈ l.cls, c ≠ ' ' := fun hl c hc e => hl.cls c hc (by rw [e]; decide)
  have e2 : ∀ (l : Leaf), (l.cls ++ s% " <" ++ l.pref ++ s% "." ++ l.cls ++ s% ">") =
      l.cls ++ ' ' :: ('<' :: (l.pref ++ (s% "." ++ l.cls ++ s% ">"))) := by
    intro l
    simp [List.append_assoc]
  rw [e2, e2] at h3
  obtain ⟨h5, h6⟩ := Msg.split_first (sp hl) (sp hm) h3
  injection h6 with _ h6
  rw [h5] at h6
  have h7 := List.append_cancel_right h6
  have h8 : l.suffix = m.suffix ∧ s = t := by
    rcases hl.suffix with e | e <;> rcases hm.suffix with e' | e' <;> rw [e, e'] at h4 ⊢
    · exact ⟨rfl, h4⟩
    · rcases hs with rfl | ⟨s', rfl⟩ <;> simp at h4
    · rcases ht with rfl | ⟨t', rfl⟩ <;> simp at h4
    · exact ⟨rfl, List.append_cancel_left h4⟩
  refine ⟨?_, h8.2⟩
  cases l; cases m
  simp_all

theorem commas_tail (l : Leaf) : ∀ ls : List Leaf, ∃ s, (s = [] ∨ ∃ s', s = ',' :: s') ∧
    commas ((l :: ls).map Leaf.text) = l.text ++ s ∧
    (ls = [] → s = []) ∧ ∀ m ms, ls = m :: ms → s = ',' :: ' ' :: commas (ls.map Leaf.text)
  | [] => ⟨[], Or.inl rfl, by simp [commas], fun _ => rfl, fun m ms e => by cases e⟩
  | m :: ms => ⟨_, Or.inr ⟨_, rfl⟩, by
      show l.text ++ s% ", " ++ commas ((m :: ms).map Leaf.text) = l.text ++ (',' :: (' ' :: commas ((m :: ms).map Leaf.text)))
      simp, fun e => (by cases e), fun _ _ _ => rfl⟩

theorem leaves_inj : ∀ {a b : List Leaf}, (∀ l ∈ a, Clean l ∧ ∀ w ∈ l.within, Usual w) →
    (∀ l ∈ b, Clean l ∧ ∀ w ∈ l.within, Usual w) →
    commas (a.map Leaf.text) = commas (b.map Leaf.text) → a = b
  | [], [], _, _, _ => rfl
  | [], m :: b, _, hb, h => by
      obtain ⟨s, _, e, _⟩ := commas_tail m b
      rw [e] at h
      simp [commas, Leaf.text] at h
  | l :: a, [], ha, _, h => by
      obtain ⟨s, _, e, _⟩ := commas_tail l a
      rw [e] at h
      simp [commas, Leaf.text] at h
  | l :: a, m :: b, ha, hb, h => by
      obtain ⟨s, hs, e, hs0, hs1⟩ := commas_tail l a
      obtain ⟨t, ht, e', ht0, ht1⟩ := commas_tail m b
      rw [e, e'] at h
      obtain ⟨rfl, hst⟩ := leaf_inj (ha l (by simp)).1 (hb m (by simp)).1 (ha l (by simp)).2 (hb m (by simp)).2 hs ht h
      cases a with
      | nil =>
        cases b with
        | nil => rfl
        | cons y b => rw [hs0 rfl, ht1 y b rfl] at hst; cases hst
      | cons x a =>
        cases b with
        | nil => rw [ht0 rfl, hs1 x a rfl] at hst; cases hst
        | cons y b =>
          rw [hs1 x a rfl, ht1 y b rfl] at hst
          injection hst with _ hst
          injection hst with _ hst
          rw [leaves_inj (fun l hl => ha l (by simp [hl])) (fun l hl => hb l (by simp [hl])) hst]

/-- C99: the text determines the classes at the leaves and the containers around each. -/
theorem C99_type_determined {p q : DProp} (hp : Plain p) (hq : Plain q)
    (up : ∀ l ∈ leaves p, ∀ w ∈ l.within, Usual w) (uq : ∀ l ∈ leaves q, ∀ w ∈ l.within, Usual w)
    (h : sphinxClass p = sphinxClass q) : leaves p = leaves q := by
  obtain ⟨h1, _, h2⟩ := text_aux hp
  obtain ⟨h3, _, h4⟩ := text_aux hq
  rw [h1, h3] at h
  exact leaves_inj (fun l hl => ⟨h2 l hl, up l hl⟩) (fun l hl => ⟨h4 l hl, uq l hl⟩) (Option.some.inj h)

/-- C99: so declarations with the same text are made of the same classes within the same
containers. -/
theorem C99_declared_determined {E : Env} {mod : ClsId → PyStr} {p q : PropSpec}
    (hn : ∀ c, Without (s% "{}:` <") (E.classes c).name ∧ Without (s% "{}:`") (mod c)) (hp : Filled p) (hq : Filled q)
    (h : sphinxClass (ofSpec E mod p) = sphinxClass (ofSpec E mod q)) : declared E mod p = declared E mod q := by
  rw [← leaves_spec, ← leaves_spec]
  exact C99_type_determined (plain_spec hn hp).1 (plain_spec hn hq).1 (plain_spec hn hp).2 (plain_spec hn hq).2 h

/-! ## The documentation of one property -/

theorem notShown_iff (v : Val) (t : PyStr) : shownDefault v t = [] ↔ NotShown v := by
  constructor
  · intro h
    cases v with
    | none => exact .none
    | undef => exact .undefined
    | str s => cases s with
        | nil => exact .text
        | cons c s => cases h
    | list s => cases s with
        | nil => exact .list
        | cons c s => cases h
    | tup s => cases s with
        | nil => exact .tuple
        | cons c s => cases h
    | set s => cases s with
        | nil => exact .set
        | cons c s => cases h
    | dict s => cases s with
        | nil => exact .dict
        | cons c s => cases h
    | _ => cases h
  · intro h
    cases h <;> rfl

theorem shown_of {v : Val} (h : ¬ NotShown v) (t : PyStr) : shownDefault v t = s% ", Default: " ++ t := by
  cases v with
  | none => exact absurd .none h
  | undef => exact absurd .undefined h
  | str s => cases s with
      | nil => exact absurd .text h
      | cons c s => rfl
  | list s => cases s with
      | nil => exact absurd .list h
      | cons c s => rfl
  | tup s => cases s with
      | nil => exact absurd .tuple h
      | cons c s => rfl
  | set s => cases s with
      | nil => exact absurd .set h
      | cons c s => rfl
  | dict s => cases s with
      | nil => exact absurd .dict h
      | cons c s => rfl
  | _ => rfl

/-- C99: the default of a settable property is documented with its text, unless it is
undefined, None or empty; nothing is called for a default that is a value. -/
theorem C99_default (D : DTexts) (E : Env) (rec : Rec) (w : World) :
    defaultText D E rec .undef w = (.ok [], w) ∧
    ∀ v, (NotShown v → defaultText D E rec (.val v) w = (.ok [], w)) ∧
      (¬ NotShown v → defaultText D E rec (.val v) w = (.ok (s% ", Default: " ++ D.value v), w)) :=
  ⟨rfl, fun v => ⟨fun h => by
    show (Except.ok (shownDefault v (D.value v)), w) = _
    rw [(notShown_iff v _).2 h], fun h => by
    show (Except.ok (shownDefault v (D.value v)), w) = _
    rw [shown_of h]⟩⟩

/-- C99: a function or class given as default is called once, as for a new instance, and
the class of what it returns is documented; what it raises is raised. -/
theorem C99_default_called (D : DTexts) (E : Env) (rec : Rec) (d : Dflt) (hu : d ≠ .undef) (hv : ∀ v, d ≠ .val v)
    (w : World) : match evalDflt E rec d w with
      | (.error e, w') => defaultText D E rec d w = (.error e, w')
      | (.ok v, w') => (NotShown v → defaultText D E rec d w = (.ok [], w')) ∧
          (¬ NotShown v →
            defaultText D E rec d w = (.ok (s% ", Default: new instance of " ++ D.clsName w' v), w')) := by
  have hd : defaultText D E rec d = (evalDflt E rec d >>= fun v =>
      fun w => (.ok (shownDefault v (s% "new instance of " ++ D.clsName w v)), w)) := by
    cases d with
    | undef => exact absurd rfl hu
    | val v => exact absurd rfl (hv v)
    | _ => rfl
  cases h : evalDflt E rec d w with
  | mk r w' =>
    cases r with
    | error e => exact (by rw [hd]; exact bind_err h)
    | ok v =>
      refine ⟨fun hn => ?_, fun hn => ?_⟩
      · rw [hd]
        refine (bind_ok h).trans ?_
        show (Except.ok (shownDefault v _), w') = _
        rw [(notShown_iff v _).2 hn]
      · rw [hd]
        refine (bind_ok h).trans ?_
        show (Except.ok (shownDefault v _), w') = _
        rw [shown_of hn]
        rfl

/-- C99: the text of a property determines its name, whatever is said about it. -/
theorem C99_name {n m : PyStr} {d e : PropDoc} (hn : Without (s% "*") n) (hm : Without (s% "*") m)
    (h : propText n d = propText m e) : n = m := by
  have e1 : ∀ (n : PyStr) (d : PropDoc), ∃ r, propText n d = '*' :: '*' :: (n ++ '*' :: r) := by
    intro n d
    exact ⟨_, by simp only [propText, List.append_assoc]; rfl⟩
  obtain ⟨r, hr⟩ := e1 n d
  obtain ⟨s, hs⟩ := e1 m e
  rw [hr, hs] at h
  injection h with _ h
  injection h with _ h
  exact (Msg.split_first (fun c hc e => hn c hc (by rw [e]; decide)) (fun c hc e => hm c hc (by rw [e]; decide)) h).1

/-- C99: documenting a property fails only if calling its default fails; the default of a
property that cannot be set is neither called nor shown. -/
theorem C99_entry (D : DTexts) (T : Msg.Texts) {E : Env} {mod : ClsId → PyStr} (rec : Rec) (doc : PyStr) {p : PropSpec}
    (hn : ∀ c, Without (s% "{}:` <") (E.classes c).name ∧ Without (s% "{}:`") (mod c)) (h : Filled p) (w : World) :
    (∀ e w', defaultText D E rec p.default w = (.error e, w') →
      entryDoc D T E mod rec doc (.mutable p) w = (.error e, w')) ∧
    (∀ t w', defaultText D E rec p.default w = (.ok t, w') → entryDoc D T E mod rec doc (.mutable p) w =
      (.ok ⟨commas ((declared E mod p).map Leaf.text), doc, Msg.info T E p, t⟩, w')) ∧
    entryDoc D T E mod rec doc (.gettable p) w =
      (.ok ⟨commas ((declared E mod p).map Leaf.text), doc, Msg.info T E p, []⟩, w) ∧
    ∀ g s d, entryDoc D T E mod rec doc (.dynamic p g s d) w =
      (.ok ⟨s% "dynamic " ++ commas ((declared E mod p).map Leaf.text), doc,
        Msg.info T E p ++ s% " created dynamically", []⟩, w) := by
  have hc := C99_declared hn h
  refine ⟨fun e w' he => ?_, fun t w' ht => ?_, ?_, fun g s d => ?_⟩
  · simp only [entryDoc, hc]
    exact bind_err he
  · simp only [entryDoc, hc]
    exact (bind_ok ht).trans rfl
  · simp only [entryDoc, hc]
    rfl
  · simp only [entryDoc, hc]
    rfl

/-! ## The documentation of a class -/

/-- Every item after a line break. -/
def broken (l : List PyStr) : PyStr := l.flatMap ('\n' :: ·)

theorem broken_inj : ∀ {a b : List PyStr}, (∀ x ∈ a, Without (s% "\n") x) → (∀ x ∈ b, Without (s% "\n") x) →
    broken a = broken b → a = b
  | [], [], _, _, _ => rfl
  | [], y :: b, _, _, h => by cases h
  | x :: a, [], _, _, h => by cases h
  | x :: a, y :: b, ha, hb, h => by
      have nb : ∀ {x : PyStr}, Without (s% "\n") x → ∀ c ∈ x, c ≠ '\n' := fun h c hc e => h c hc (by rw [e]; decide)
      have h' : x ++ broken a = y ++ broken b := by
        simpa [broken] using h
      have key : x = y ∧ broken a = broken b := by
        cases a with
        | nil =>
          cases b with
          | nil => simpa [broken] using h'
          | cons z b =>
            exfalso
            have hx : '\n' ∈ x := by
              have : '\n' ∈ x ++ broken [] := by rw [h']; simp [broken]
              simpa [broken] using this
            exact nb (ha x (by simp)) _ hx rfl
        | cons z a =>
          cases b with
          | nil =>
            exfalso
            have hy : '\n' ∈ y := by
              have : '\n' ∈ y ++ broken [] := by rw [← h']; simp [broken]
              simpa [broken] using this
            exact nb (hb y (by simp)) _ hy rfl
          | cons z' b =>
            have hb' : broken (z :: a) = '\n' :: (z ++ broken a) := by simp [broken]
            have hb'' : broken (z' :: b) = '\n' :: (z' ++ broken b) := by simp [broken]
            rw [hb', hb''] at h' ⊢
            obtain ⟨h1, h2⟩ := Msg.split_first (nb (ha x (by simp))) (nb (hb y (by simp))) h'
            exact ⟨h1, by rw [h2]⟩
      rw [key.1, broken_inj (fun x hx => ha x (by simp [hx])) (fun x hx => hb x (by simp [hx])) key.2]

/-- The items of a section. -/
def items (title : PyStr) (docs : PyStr → PropDoc) (names : List PyStr) : List PyStr :=
  if names.isEmpty then []
  else [] :: title :: [] :: names.map fun n => s% "* " ++ propText n (docs n)

theorem join_broken : ∀ (l : List PyStr), l ≠ [] → '\n' :: Msg.join (s% "\n") l = broken l
  | [], h => absurd rfl h
  | [x], _ => by simp [Msg.join, broken]
  | x :: y :: l, _ => by
      have := join_broken (y :: l) (by simp)
      rw [show Msg.join (s% "\n") (x :: y :: l) = x ++ s% "\n" ++ Msg.join (s% "\n") (y :: l) from rfl]
      show '\n' :: (x ++ s% "\n" ++ Msg.join (s% "\n") (y :: l)) = _
      rw [show broken (x :: y :: l) = '\n' :: (x ++ broken (y :: l)) by simp [broken], ← this]
      simp

theorem section_items (title : PyStr) (docs : PyStr → PropDoc) (names : List PyStr) :
    sectionText title docs names = broken (items title docs names) := by
  unfold sectionText items
  cases names with
  | nil => rfl
  | cons n names =>
    have := join_broken ((n :: names).map fun n => s% "* " ++ propText n (docs n)) (by simp)
    simp only [List.isEmpty_cons, Bool.false_eq_true, if_false]
    rw [show broken ([] :: title :: [] :: (n :: names).map fun n => s% "* " ++ propText n (docs n)) =
      '\n' :: '\n' :: (title ++ '\n' :: broken ((n :: names).map fun n => s% "* " ++ propText n (docs n)))
      by simp [broken], ← this]
    simp

def allItems (docs : PyStr → PropDoc) (k : Cls.Class) : List PyStr :=
  items titleReq docs k.secReq ++ (items titleOpt docs k.secOpt ++
    (items titleImm docs k.secImm ++ items titlePriv docs k.secPriv))

theorem class_items (doc : PyStr) (docs : PyStr → PropDoc) (k : Cls.Class) :
    classText doc docs k = doc ++ broken (allItems docs k) := by
  unfold classText allItems
  rw [section_items, section_items, section_items, section_items]
  simp [broken, List.append_assoc]

/-- What follows a section: nothing, or an empty line and one of these titles. -/
def After (titles : List PyStr) (rest : List PyStr) : Prop :=
  rest = [] ∨ ∃ t ∈ titles, ∃ r, rest = [] :: t :: r

theorem after_items {title : PyStr} {titles rest : List PyStr} (docs : PyStr → PropDoc) (names : List PyStr)
    (h : After titles rest) : After (title :: titles) (items title docs names ++ rest) := by
  unfold items
  cases names with
  | nil =>
    rcases h with h | ⟨t, ht, r, h⟩
    · exact Or.inl (by simpa using h)
    · exact Or.inr ⟨t, by simp [ht], r, by simpa using h⟩
  | cons n names => exact Or.inr ⟨title, by simp, _, rfl⟩

theorem lines_split : ∀ {a b : List PyStr} {x y : List PyStr}, (∀ l ∈ a, l ≠ []) → (∀ l ∈ b, l ≠ []) →
    (x = [] ∨ ∃ r, x = [] :: r) → (y = [] ∨ ∃ r, y = [] :: r) → a ++ x = b ++ y → a = b ∧ x = y
  | [], [], _, _, _, _, _, _, h => ⟨rfl, h⟩
  | [], l :: b, x, y, _, hb, hx, _, h => by
      rcases hx with rfl | ⟨r, rfl⟩
      · cases h
      · injection h with h1 _
        exact absurd h1.symm (hb l (by simp))
  | l :: a, [], x, y, ha, _, _, hy, h => by
      rcases hy with rfl | ⟨r, rfl⟩
      · cases h
      · injection h with h1 _
        exact absurd h1 (ha l (by simp))
  | l :: a, m :: b, x, y, ha, hb, hx, hy, h => by
      injection h with h1 h2
      obtain ⟨h3, h4⟩ := lines_split (fun l hl => ha l (by simp [hl])) (fun l hl => hb l (by simp [hl])) hx hy h2
      exact ⟨by rw [h1, h3], h4⟩

theorem lines_inj {docs docs' : PyStr → PropDoc} : ∀ {a b : List PyStr}, (∀ n ∈ a, Without (s% "*") n) →
    (∀ n ∈ b, Without (s% "*") n) → (a.map fun n => s% "* " ++ propText n (docs n)) =
      (b.map fun n => s% "* " ++ propText n (docs' n)) →
    a = b ∧ ∀ n ∈ a, propText n (docs n) = propText n (docs' n)
  | [], [], _, _, _ => ⟨rfl, fun n hn => by cases hn⟩
  | [], n :: b, _, _, h => by cases h
  | n :: a, [], _, _, h => by cases h
  | n :: a, m :: b, ha, hb, h => by
      injection h with h1 h2
      have h1 := List.append_cancel_left h1
      obtain rfl := C99_name (ha n (by simp)) (hb m (by simp)) h1
      obtain ⟨rfl, h3⟩ := lines_inj (fun l hl => ha l (by simp [hl])) (fun l hl => hb l (by simp [hl])) h2
      refine ⟨rfl, fun x hx => ?_⟩
      rcases List.mem_cons.1 hx with rfl | hx
      exacts [h1, h3 x hx]

theorem items_inj {title : PyStr} {titles : List PyStr} (ht : title ∉ titles) {docs docs' : PyStr → PropDoc}
    {a b x y : List PyStr} (ha : ∀ n ∈ a, Without (s% "*") n) (hb : ∀ n ∈ b, Without (s% "*") n)
    (hx : After titles x) (hy : After titles y) (h : items title docs a ++ x = items title docs' b ++ y) :
    (a = b ∧ ∀ n ∈ a, propText n (docs n) = propText n (docs' n)) ∧ x = y := by
  have weak : ∀ {x : List PyStr}, After titles x → x = [] ∨ ∃ r, x = [] :: r := by
    intro x hx
    rcases hx with h | ⟨t, _, r, h⟩
    exacts [Or.inl h, Or.inr ⟨_, h⟩]
  have no : ∀ {x : List PyStr} {r : List PyStr}, After titles x → x ≠ [] :: title :: r := by
    intro x r hx e
    rcases hx with h | ⟨t, htt, r', h⟩
    · rw [h] at e; cases e
    · rw [h] at e
      injection e with _ e
      injection e with e _
      exact ht (e ▸ htt)
  unfold items at h
  cases a with
  | nil =>
    cases b with
    | nil => exact ⟨⟨rfl, fun n hn => by cases hn⟩, by simpa using h⟩
    | cons m b => exact absurd (show x = [] :: title :: _ by simpa using h) (no hx)
  | cons n a =>
    cases b with
    | nil => exact absurd (show y = [] :: title :: _ by simpa using h.symm) (no hy)
    | cons m b =>
      simp only [List.isEmpty_cons, Bool.false_eq_true, if_false, List.cons_append, List.cons.injEq,
        true_and] at h
      have h' : (((n :: a).map fun n => s% "* " ++ propText n (docs n)) ++ x : List PyStr) =
          ((m :: b).map fun n => s% "* " ++ propText n (docs' n)) ++ y := by
        simpa using h
      have ne : ∀ (d : PyStr → PropDoc) (l : List PyStr), ∀ z ∈ l.map (fun n => s% "* " ++ propText n (d n)), z ≠ [] := by
        intro d l z hz
        obtain ⟨n, _, rfl⟩ := List.mem_map.1 hz
        exact fun e => by cases e
      obtain ⟨h1, h2⟩ := lines_split (ne _ _) (ne _ _) (weak hx) (weak hy) h'
      exact ⟨lines_inj ha hb h1, h2⟩

theorem prop_unbroken {n : PyStr} {d : PropDoc} (hn : Without (s% "\n") n) (hd : Unbroken d) :
    Without (s% "\n") (s% "* " ++ propText n d) := by
  obtain ⟨h1, h2, h3, h4⟩ := hd
  unfold propText
  refine without_append (by decide) (without_append (without_append (without_append (without_append (without_append
    (without_append (without_append (by decide) hn) (by decide)) ?_) (by decide)) h2) ?_) h4)
  · split
    · exact fun c hc => by cases hc
    · exact without_append (without_append (by decide) h1) (by decide)
  · split
    · exact fun c hc => by cases hc
    · exact without_append (by decide) h3

theorem items_unbroken {title : PyStr} (ht : Without (s% "\n") title) {docs : PyStr → PropDoc} {names : List PyStr}
    (hn : ∀ n ∈ names, Without (s% "\n") n ∧ Unbroken (docs n)) : ∀ x ∈ items title docs names, Without (s% "\n") x := by
  intro x hx
  unfold items at hx
  split at hx
  · cases hx
  · rcases List.mem_cons.1 hx with rfl | hx
    · exact fun c hc => by cases hc
    rcases List.mem_cons.1 hx with rfl | hx
    · exact ht
    rcases List.mem_cons.1 hx with rfl | hx
    · exact fun c hc => by cases hc
    obtain ⟨n, hn', rfl⟩ := List.mem_map.1 hx
    exact prop_unbroken (hn n hn').1 (hn n hn').2

/-- The documented names of a class. -/
def documented (k : Cls.Class) : List PyStr := k.secReq ++ k.secOpt ++ k.secImm ++ k.secPriv

theorem allItems_unbroken {docs : PyStr → PropDoc} {k : Cls.Class}
    (hn : ∀ n ∈ documented k, Without (s% "\n") n ∧ Unbroken (docs n)) :
    ∀ x ∈ allItems docs k, Without (s% "\n") x := by
  intro x hx
  simp only [documented, List.mem_append] at hn
  simp only [allItems, List.mem_append] at hx
  rcases hx with h | h | h | h
  · exact items_unbroken (by decide) (fun n hn' => hn n (by simp [hn'])) x h
  · exact items_unbroken (by decide) (fun n hn' => hn n (by simp [hn'])) x h
  · exact items_unbroken (by decide) (fun n hn' => hn n (by simp [hn'])) x h
  · exact items_unbroken (by decide) (fun n hn' => hn n (by simp [hn'])) x h

/-- C99: the documentation of a class determines, beyond its own docstring, which
properties each section lists, in which order, and the text of each. -/
theorem C99_document {doc : PyStr} {docs docs' : PyStr → PropDoc} {k k' : Cls.Class}
    (hk : ∀ n ∈ documented k, Without (s% "*\n") n ∧ Unbroken (docs n))
    (hk' : ∀ n ∈ documented k', Without (s% "*\n") n ∧ Unbroken (docs' n))
    (h : classText doc docs k = classText doc docs' k') :
    k.secReq = k'.secReq ∧ k.secOpt = k'.secOpt ∧ k.secImm = k'.secImm ∧ k.secPriv = k'.secPriv ∧
      ∀ n ∈ documented k, propText n (docs n) = propText n (docs' n) := by
  rw [class_items, class_items] at h
  have h := broken_inj
    (allItems_unbroken fun n hn => ⟨Without.mono (hk n hn).1 (by decide), (hk n hn).2⟩)
    (allItems_unbroken fun n hn => ⟨Without.mono (hk' n hn).1 (by decide), (hk' n hn).2⟩) (List.append_cancel_left h)
  have s1 : ∀ n ∈ documented k, Without (s% "*") n := fun n hn => Without.mono (hk n hn).1 (by decide)
  have s2 : ∀ n ∈ documented k', Without (s% "*") n := fun n hn => Without.mono (hk' n hn).1 (by decide)
  simp only [documented, List.mem_append] at s1 s2 ⊢
  have a4 : ∀ (d : PyStr → PropDoc) (k : Cls.Class), After [titlePriv] (items titlePriv d k.secPriv) := by
    intro d k
    have := after_items (title := titlePriv) (titles := []) d k.secPriv (Or.inl rfl)
    rwa [List.append_nil] at this
  have a3 := fun d (k : Cls.Class) => after_items (title := titleImm) d k.secImm (a4 d k)
  have a2 := fun d (k : Cls.Class) => after_items (title := titleOpt) d k.secOpt (a3 d k)
  unfold allItems at h
  obtain ⟨⟨r1, t1⟩, h⟩ := items_inj (by decide) (fun n hn => s1 n (by simp [hn])) (fun n hn => s2 n (by simp [hn]))
    (a2 docs k) (a2 docs' k') h
  obtain ⟨⟨r2, t2⟩, h⟩ := items_inj (by decide) (fun n hn => s1 n (by simp [hn])) (fun n hn => s2 n (by simp [hn]))
    (a3 docs k) (a3 docs' k') h
  obtain ⟨⟨r3, t3⟩, h⟩ := items_inj (by decide) (fun n hn => s1 n (by simp [hn])) (fun n hn => s2 n (by simp [hn]))
    (a4 docs k) (a4 docs' k') h
  have h : items titlePriv docs k.secPriv ++ [] = items titlePriv docs' k'.secPriv ++ [] := by rw [h]
  obtain ⟨⟨r4, t4⟩, _⟩ := items_inj (titles := []) (by simp) (fun n hn => s1 n (by simp [hn]))
    (fun n hn => s2 n (by simp [hn])) (Or.inl rfl) (Or.inl rfl) h
  refine ⟨r1, r2, r3, r4, fun n hn => ?_⟩
  rcases hn with ((h | h) | h) | h
  exacts [t1 n h, t2 n h, t3 n h, t4 n h]

theorem lines_ne (s : PyStr) : lines s ≠ [] := by
  cases s with
  | nil => exact fun h => by cases h
  | cons c s =>
    unfold lines
    split
    · exact fun h => by cases h
    · split <;> exact fun h => by cases h

theorem lines_clean : ∀ {x : PyStr}, Without (s% "\n") x → ∀ s, lines (x ++ '\n' :: s) = x :: lines s
  | [], _, s => by simp [lines]
  | c :: x, h, s => by
      have hc : c ≠ '\n' := fun e => h c (by simp) (by rw [e]; decide)
      rw [List.cons_append, lines, if_neg hc, lines_clean (fun d hd => h d (by simp [hd])) s]

theorem lines_one : ∀ {x : PyStr}, Without (s% "\n") x → lines x = [x]
  | [], _ => rfl
  | c :: x, h => by
      have hc : c ≠ '\n' := fun e => h c (by simp) (by rw [e]; decide)
      rw [lines, if_neg hc, lines_one (fun d hd => h d (by simp [hd]))]

theorem lines_broken : ∀ {l : List PyStr}, (∀ x ∈ l, Without (s% "\n") x) → lines (broken l) = [] :: l
  | [], _ => rfl
  | [x], h => by
      have : broken [x] = '\n' :: x := by simp [broken]
      rw [this, lines, if_pos rfl, lines_one (h x (by simp))]
  | x :: y :: l, h => by
      have ih := lines_broken (l := y :: l) (fun z hz => h z (by simp [hz]))
      have e : broken (y :: l) = '\n' :: (y ++ broken l) := by simp [broken]
      rw [show broken (x :: y :: l) = '\n' :: (x ++ broken (y :: l)) by simp [broken], lines, if_pos rfl]
      rw [e] at ih ⊢
      rw [lines_clean (h x (by simp))]
      rw [lines, if_pos rfl] at ih
      injection ih with _ ih
      rw [ih]

/-- The lines about properties in the sections. -/
theorem count_items {title : PyStr} {docs : PyStr → PropDoc} {names : List PyStr} {x : PyStr} (h1 : x ≠ [])
    (h2 : x ≠ title) : (items title docs names).count x = (names.map fun n => s% "* " ++ propText n (docs n)).count x := by
  unfold items
  cases names with
  | nil => rfl
  | cons n names =>
    simp only [List.isEmpty_cons, Bool.false_eq_true, if_false]
    rw [List.count_cons_of_ne (Ne.symm h1), List.count_cons_of_ne (Ne.symm h2), List.count_cons_of_ne (Ne.symm h1)]

/-- C99: after the docstring of a class, the documentation has for every documented
property exactly one line, `* ` and its text, and no other line begins with the name of a
property in bold; which properties are documented is C36. -/
theorem C99_lines {chk : PyStr → Entry → Dflt → Option ErrKind} {S : Cls.State} (hS : Cls.Reachable chk S)
    {i : ClsId} {k : Cls.Class} (hi : S.classes[i]? = some k) (hp : k.hp = true) {doc : PyStr}
    {docs : PyStr → PropDoc} (hk : ∀ n ∈ k.order, Without (s% "*\n") n ∧ Unbroken (docs n)) :
    ∃ rest, classText doc docs k = doc ++ rest ∧
      (∀ n ∈ k.order, (lines rest).count (s% "* " ++ propText n (docs n)) = 1) ∧
      ∀ l ∈ lines rest, ∀ n d, Without (s% "*") n → l = s% "* " ++ propText n d → n ∈ k.order := by
  obtain ⟨priv, hdoc, -, -⟩ := Cls.C36_documented_once hS hi hp
  have hperm : (documented k).Perm k.order := hdoc.partition
  have hun : ∀ x ∈ allItems docs k, Without (s% "\n") x := allItems_unbroken fun n hn =>
    ⟨Without.mono (hk n (hperm.mem_iff.1 hn)).1 (by decide), (hk n (hperm.mem_iff.1 hn)).2⟩
  refine ⟨broken (allItems docs k), class_items doc docs k, ?_, ?_⟩
  · intro n hn
    rw [lines_broken hun, List.count_cons_of_ne (fun e => by cases e)]
    have h1 : (s% "* " ++ propText n (docs n) : PyStr) ≠ [] := fun e => by cases e
    have ht : ∀ (t : PyStr), (s% "* " ++ propText n (docs n) : PyStr) ≠ '*' :: '*' :: t := fun t e => by
      injection e with _ e
      injection e with e _
      cases e
    unfold allItems
    rw [List.count_append, List.count_append, List.count_append, count_items h1 (show _ ≠ titleReq from ht _),
      count_items h1 (show _ ≠ titleOpt from ht _), count_items h1 (show _ ≠ titleImm from ht _),
      count_items h1 (show _ ≠ titlePriv from ht _)]
    have hsum : ((documented k).map fun n => s% "* " ++ propText n (docs n)).count (s% "* " ++ propText n (docs n)) = 1 := by
      rw [(hperm.map _).count_eq]
      refine List.count_eq_one_of_mem ?_ (List.mem_map.2 ⟨n, hn, rfl⟩)
      refine List.nodup_iff_pairwise_ne.2 (List.pairwise_map.2 ?_)
      refine List.Pairwise.imp_of_mem (fun {a b} ha hb hab e => hab ?_) (List.nodup_iff_pairwise_ne.1 hdoc.once)
      exact C99_name (Without.mono (hk a ha).1 (by decide)) (Without.mono (hk b hb).1 (by decide))
        (List.append_cancel_left e)
    simp only [documented, List.map_append, List.count_append] at hsum
    omega
  · intro l hl n d hn e
    rw [lines_broken hun] at hl
    subst e
    have hmem : ∀ (title : PyStr) (t : PyStr) (names : List PyStr), title = '*' :: '*' :: t →
        (∀ m ∈ names, m ∈ documented k) →
        (s% "* " ++ propText n d : PyStr) ∈ items title docs names → n ∈ k.order := by
      intro title t names ht hsub hm
      unfold items at hm
      split at hm
      · cases hm
      · rcases List.mem_cons.1 hm with e | hm
        · cases e
        rcases List.mem_cons.1 hm with e | hm
        · rw [ht] at e
          injection e with _ e
          injection e with e _
          cases e
        rcases List.mem_cons.1 hm with e | hm
        · cases e
        obtain ⟨m, hm, e⟩ := List.mem_map.1 hm
        have hmo := hperm.mem_iff.1 (hsub m hm)
        rw [← C99_name (Without.mono (hk m hmo).1 (by decide)) hn (List.append_cancel_left e)]
        exact hmo
    rcases List.mem_cons.1 hl with e | hl
    · cases e
    simp only [allItems, List.mem_append] at hl
    rcases hl with h | h | h | h
    · exact hmem titleReq _ _ rfl (fun m hm => by simp [documented, hm]) h
    · exact hmem titleOpt _ _ rfl (fun m hm => by simp [documented, hm]) h
    · exact hmem titleImm _ _ rfl (fun m hm => by simp [documented, hm]) h
    · exact hmem titlePriv _ _ rfl (fun m hm => by simp [documented, hm]) h

/-! ## Cases -/

/-- A Set of Lists of Integers, and a List of a Union of Integer and String. -/
def c99Set : PropSpec := .mk true none none .undef (.seq .set
  (.mk true none none .undef (.seq .list (.mk true none none .undef (.integer false none none)) none none false)) none none false)

def c99List : PropSpec := .mk true none none .undef (.seq .list (.mk true none none .undef
  (.union [.mk true none none .undef (.integer false none none), .mk true none none .undef (.boolean false)] false))
  none none false)

/-- Declarations within the hypotheses of `C99_declared`; the container words come
innermost first, and once for every alternative of a Union. -/
theorem C99_example (mod : ClsId → PyStr) : Filled c99Set ∧ Filled c99List ∧
    sphinxClass (ofSpec demoEnv mod c99Set) =
      some (s% "a list of a set of :class:`Integer <properties.Integer>`") ∧
    sphinxClass (ofSpec demoEnv mod c99List) = some
      (s% "a list of :class:`Integer <properties.Integer>`, a list of :class:`Boolean <properties.Boolean>`") := by
  refine ⟨?_, ?_, ?_, ?_⟩
  · simp [c99Set, Filled, FilledTy]
  · simp [c99List, Filled, FilledTy, FilledAll]
  · rfl
  · rfl

/-- A class within the hypotheses of `C99_document` and `C99_lines`. -/
def c99Docs (n : PyStr) : PropDoc := ⟨s% ":class:`Integer <properties.Integer>`", s% "about " ++ n, s% "an integer", []⟩

theorem C99_example_class : (Cls.runDecls Cls.c36Decls).map (fun S =>
      S.classes.map fun k => classText (s% "Mine.") c99Docs k) =
    some [s% "Mine.",
      s% "Mine.\n\n**Required Properties:**\n\n* **z** (:class:`Integer <properties.Integer>`): about z, an integer\n\n**Optional Properties:**\n\n* **b** (:class:`Integer <properties.Integer>`): about b, an integer\n\n**Other Properties:**\n\n* **a** (:class:`Integer <properties.Integer>`): about a, an integer",
      s% "Mine.\n\n**Required Properties:**\n\n* **z** (:class:`Integer <properties.Integer>`): about z, an integer\n\n**Optional Properties:**\n\n* **b** (:class:`Integer <properties.Integer>`): about b, an integer\n\n**Other Properties:**\n\n* **a** (:class:`Integer <properties.Integer>`): about a, an integer\n\n**Private Properties:**\n\n* **_p** (:class:`Integer <properties.Integer>`): about _p, an integer",
      s% "Mine.\n\n**Required Properties:**\n\n* **d** (:class:`Integer <properties.Integer>`): about d, an integer\n* **z** (:class:`Integer <properties.Integer>`): about z, an integer\n\n**Optional Properties:**\n\n* **b** (:class:`Integer <properties.Integer>`): about b, an integer\n\n**Other Properties:**\n\n* **a** (:class:`Integer <properties.Integer>`): about a, an integer\n\n**Private Properties:**\n\n* **_p** (:class:`Integer <properties.Integer>`): about _p, an integer"] ∧
    (∀ n ∈ [s% "z", s% "b", s% "a", s% "_p"], Without (s% "*\n") n ∧ Without (s% "\n") (c99Docs n).doc) ∧
    (∀ n, Without (s% "\n") (c99Docs n).cls ∧ Without (s% "\n") (c99Docs n).info ∧ Without (s% "\n") (c99Docs n).dflt) := by
  refine ⟨by decide +kernel, by decide +kernel, fun n => ⟨?_, ?_, ?_⟩⟩
  · show Without (s% "\n") (s% ":class:`Integer <properties.Integer>`")
    decide +kernel
  · show Without (s% "\n") (s% "an integer")
    decide +kernel
  · exact fun c hc => by cases hc

/-- The theorem about lines applies to the third of these classes. -/
example : ∃ k : Cls.Class, k.order = [s% "b", s% "_p", s% "a", s% "z"] ∧
    ∃ rest, classText (s% "Mine.") c99Docs k = s% "Mine." ++ rest ∧
      (∀ n ∈ k.order, (lines rest).count (s% "* " ++ propText n (c99Docs n)) = 1) ∧
      ∀ l ∈ lines rest, ∀ n d, Without (s% "*") n → l = s% "* " ++ propText n d → n ∈ k.order := by
  have h : (Cls.runDecls Cls.c36Decls).map (fun S => S.classes[2]?.map fun k => (k.order, k.hp)) =
      some (some ([s% "b", s% "_p", s% "a", s% "z"], true)) := by decide +kernel
  obtain ⟨S, hS, h⟩ := Option.map_eq_some_iff.1 h
  obtain ⟨k, hk, h⟩ := Option.map_eq_some_iff.1 h
  obtain ⟨h1, h2⟩ := Prod.mk.inj h
  refine ⟨k, h1, C99_lines (Cls.reachable_runDecls (by decide +kernel) hS) hk h2 fun n hn => ?_⟩
  rw [h1] at hn
  have h3 : ∀ n ∈ [s% "b", s% "_p", s% "a", s% "z"], Without (s% "*\n") n ∧ Without (s% "\n") (c99Docs n).doc := by
    decide +kernel
  obtain ⟨a, b⟩ := h3 n hn
  obtain ⟨c, d, e⟩ := C99_example_class.2.2 n
  exact ⟨a, c, b, d, e⟩

end Verif.DocText
