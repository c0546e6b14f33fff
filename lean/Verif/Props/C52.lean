import Verif.Spec.Url

/-!
# C52: URL normalisation
-/

namespace Verif.Url
open Spec

/-! ## Cutting texts -/

theorem before_append {p : Char → Bool} {a b : PyStr} (ha : ∀ c ∈ a, p c = false) (hb : b = [] ∨ ∃ c t, b = c :: t ∧ p c = true) :
    before p (a ++ b) = a ∧ from' p (a ++ b) = b := by
  induction a with
  | nil =>
    rcases hb with rfl | ⟨c, t, rfl, h⟩
    · exact ⟨rfl, rfl⟩
    · simp [before, from', h]
  | cons x a ih =>
    have := ih (fun c hc => ha c (by simp [hc]))
    have hx := ha x (by simp)
    simp only [before, from', List.cons_append] at this ⊢
    simp [hx, this.1, this.2]

theorem before_none {p : Char → Bool} {s : PyStr} : ∀ c ∈ before p s, p c = false := by
  intro c hc
  induction s with
  | nil => cases hc
  | cons x s ih =>
    unfold before at hc ih
    rw [List.takeWhile_cons] at hc
    split at hc
    · rename_i h
      rcases List.mem_cons.1 hc with rfl | hc
      · simpa using h
      · exact ih hc
    · cases hc

theorem before_sub {p : Char → Bool} {s : PyStr} {c : Char} (h : c ∈ before p s) : c ∈ s :=
  (List.takeWhile_sublist _).subset h

theorem from_sub {p : Char → Bool} {s : PyStr} {c : Char} (h : c ∈ from' p s) : c ∈ s :=
  (List.dropWhile_sublist _).subset h

theorem from_head {p : Char → Bool} {s : PyStr} : from' p s = [] ∨ ∃ c t, from' p s = c :: t ∧ p c = true := by
  cases h : from' p s with
  | nil => exact .inl rfl
  | cons c t =>
    refine .inr ⟨c, t, rfl, ?_⟩
    have := List.head?_dropWhile_not (fun c => !p c) s
    unfold from' at h
    rw [h] at this
    simpa using this

theorem cut (p : Char → Bool) (s : PyStr) : before p s ++ from' p s = s := List.takeWhile_append_dropWhile

theorem dir_last (s : PyStr) : dirPart s ++ lastPart s = s := by
  unfold dirPart lastPart
  rw [← List.reverse_append, cut, List.reverse_reverse]

theorem last_none (s : PyStr) : '/' ∉ lastPart s := by
  intro h
  have := before_none (p := (· == '/')) (s := s.reverse) '/' (by simpa [lastPart] using h)
  simp at this

theorem last_append (a b : PyStr) (hb : '/' ∉ b) (ha : a = [] ∨ ∃ d, a = d ++ ['/']) :
    dirPart (a ++ b) = a ∧ lastPart (a ++ b) = b := by
  have := before_append (p := (· == '/')) (a := b.reverse) (b := a.reverse)
    (by intro c hc; simp only [List.mem_reverse] at hc; simp only [beq_eq_false_iff_ne]; rintro rfl; exact hb hc)
    (by
      rcases ha with rfl | ⟨d, rfl⟩
      · exact .inl rfl
      · exact .inr ⟨'/', d.reverse, by simp, by simp⟩)
  unfold dirPart lastPart
  rw [List.reverse_append, this.1, this.2]
  simp

theorem dir_form (s : PyStr) : dirPart s = [] ∨ ∃ d, dirPart s = d ++ ['/'] := by
  unfold dirPart
  rcases from_head (p := (· == '/')) (s := s.reverse) with h | ⟨c, t, h, hc⟩
  · rw [h]; exact .inl rfl
  · have : c = '/' := by simpa using hc
    subst this
    rw [h]
    exact .inr ⟨t.reverse, by simp⟩

/-! ## Results of parsing -/

/-- What parsing gives, for URLs with a scheme and a network location. -/
structure WF (E : UrlEnv) (r : Parsed) : Prop where
  scheme : Scheme r.scheme
  netloc : r.netloc ≠ [] ∧ Plain r.netloc
  netOk : E.netlocOk r.netloc = true
  path : r.path = [] ∨ r.path.head? = some '/'
  pathChars : ∀ c ∈ r.path, c ≠ '?' ∧ c ≠ '#'
  params : Plain r.params
  hasParams : r.params ≠ [] → E.usesParams r.scheme = true ∧ r.path ≠ []
  noParams : E.usesParams r.scheme = true → ';' ∉ lastPart r.path
  query : '#' ∉ r.query
  safe : ∀ c, c ∈ r.netloc ∨ c ∈ r.path ∨ c ∈ r.params ∨ c ∈ r.query ∨ c ∈ r.fragment → isUnsafe c = false

theorem lower_scheme {c : Char} (h : isSchemeChar c = true) :
    (97 ≤ (lower c).toNat ∧ (lower c).toNat ≤ 122) ∨ (48 ≤ (lower c).toNat ∧ (lower c).toNat ≤ 57) ∨
      lower c = '+' ∨ lower c = '-' ∨ lower c = '.' := by
  unfold lower
  split
  · rename_i hc
    left
    have : (Char.ofNat (c.toNat + 32)).toNat = c.toNat + 32 := by
      have hv : Nat.isValidChar (c.toNat + 32) := Or.inl (by omega)
      unfold Char.ofNat
      rw [dif_pos hv]
      rfl
    omega
  · rename_i hc
    simp only [isSchemeChar, isLetter, Bool.or_eq_true, Bool.and_eq_true, decide_eq_true_eq, beq_iff_eq] at h
    rcases h with (((((h | h) | h) | h) | h) | h)
    · exact .inl h
    · exact absurd h hc
    · exact .inr (.inl h)
    · exact .inr (.inr (.inl h))
    · exact .inr (.inr (.inr (.inl h)))
    · exact .inr (.inr (.inr (.inr h)))

theorem lower_letter {c : Char} (h : isLetter c = true) : 97 ≤ (lower c).toNat ∧ (lower c).toNat ≤ 122 := by
  unfold lower
  split
  · rename_i hc
    have : (Char.ofNat (c.toNat + 32)).toNat = c.toNat + 32 := by
      have hv : Nat.isValidChar (c.toNat + 32) := Or.inl (by omega)
      unfold Char.ofNat
      rw [dif_pos hv]
      rfl
    omega
  · simp only [isLetter, Bool.or_eq_true, Bool.and_eq_true, decide_eq_true_eq] at h
    omega

theorem lower_same {c : Char} (h : ¬ (65 ≤ c.toNat ∧ c.toNat ≤ 90)) : lower c = c := by
  unfold lower; rw [if_neg h]

theorem safe_clean {s : PyStr} {c : Char} (h : c ∈ (s.dropWhile isControl).filter fun c => !isUnsafe c) :
    isUnsafe c = false := by
  have := (List.mem_filter.1 h).2
  simpa using this

theorem splitScheme_wf {s : PyStr} {a b : PyStr} (h : splitScheme s = (a, b)) (ha : a ≠ []) :
    Scheme a ∧ ∀ c ∈ b, c ∈ s := by
  unfold splitScheme at h
  simp only at h
  split at h
  · rename_i hc
    obtain ⟨h1, h2, h3⟩ := hc
    cases h
    refine ⟨⟨?_, ?_⟩, fun c hc => from_sub (List.mem_of_mem_tail hc)⟩
    · cases hn : before (· == ':') s with
      | nil => rw [hn] at h2; simp at h2
      | cons x t =>
        rw [hn] at h2
        exact ⟨lower x, t.map lower, rfl, lower_letter (by simpa using h2)⟩
    · intro c hc
      obtain ⟨x, hx, rfl⟩ := List.mem_map.1 hc
      exact lower_scheme (List.all_eq_true.1 h3 x hx)
  · cases h; exact absurd rfl ha

theorem splitNetloc_wf {s a b : PyStr} (h : splitNetloc s = (a, b)) (ha : a ≠ []) :
    Plain a ∧ (b = [] ∨ ∃ c t, b = c :: t ∧ endsNetloc c = true) ∧ (∀ c, c ∈ a ∨ c ∈ b → c ∈ s) := by
  unfold splitNetloc at h
  split at h
  · rename_i t
    cases h
    refine ⟨fun c hc => ?_, from_head, fun c hc => ?_⟩
    · have := before_none c hc
      simp only [endsNetloc, Bool.or_eq_false_iff, beq_eq_false_iff_ne] at this
      exact ⟨this.1.1, this.1.2, this.2⟩
    · rcases hc with hc | hc
      · simp [before_sub hc]
      · simp [from_sub hc]
  · cases h; exact absurd rfl ha

theorem before_head {p : Char → Bool} {s : PyStr} : before p s = [] ∨ (before p s).head? = s.head? := by
  cases s with
  | nil => exact .inl rfl
  | cons c t =>
    unfold before
    rw [List.takeWhile_cons]
    split
    · exact .inr rfl
    · exact .inl rfl

/-- The path of a URL with a network location. -/
theorem path_head {s : PyStr} (h : s = [] ∨ ∃ c t, s = c :: t ∧ endsNetloc c = true) :
    before (· == '?') (before (· == '#') s) = [] ∨ (before (· == '?') (before (· == '#') s)).head? = some '/' := by
  rcases h with rfl | ⟨c, t, rfl, hc⟩
  · exact .inl rfl
  · simp only [endsNetloc, Bool.or_eq_true, beq_iff_eq] at hc
    rcases hc with (rfl | rfl) | rfl
    · right
      simp [before]
    · left
      simp [before]
    · left
      simp [before]

theorem head_append {a b : PyStr} (h : a ≠ []) : (a ++ b).head? = a.head? := by
  cases a with
  | nil => exact absurd rfl h
  | cons => rfl

/-- A path that starts with a slash has a directory. -/
theorem dir_head {s : PyStr} (h : s.head? = some '/') : (dirPart s).head? = some '/' := by
  have hd : dirPart s ≠ [] := by
    intro he
    have := dir_last s
    rw [he, List.nil_append] at this
    cases s with
    | nil => cases h
    | cons c t =>
      cases h
      exact last_none ('/' :: t) (by rw [this]; simp)
  rw [← dir_last s, head_append hd] at h
  exact h

theorem urlparse_wf {E : UrlEnv} {s : PyStr} {r : Parsed} (h : urlparse E s = .ok r) (hs : r.scheme ≠ []) (hn : r.netloc ≠ []) :
    WF E r := by
  unfold urlparse at h
  simp only at h
  cases h1 : splitScheme ((s.dropWhile isControl).filter fun c => !isUnsafe c) with
  | mk scheme s1 =>
    cases h2 : splitNetloc s1 with
    | mk netloc s2 =>
      rw [h1] at h
      simp only at h
      rw [h2] at h
      simp only at h
      split at h
      · rename_i hok
        have hpath := fun (c : Char) (hc : c ∈ before (· == '?') (before (· == '#') s2)) =>
          And.intro (by simpa using before_none c hc : c ≠ '?') (by simpa using before_none c (before_sub hc) : c ≠ '#')
        have hq : '#' ∉ (from' (· == '?') (before (· == '#') s2)).tail := by
          intro hc
          have := before_none _ (from_sub (List.mem_of_mem_tail hc))
          simp at this
        by_cases hu : E.usesParams scheme = true
        · rw [if_pos hu] at h
          simp only [Except.ok.injEq] at h
          subst h
          obtain ⟨a1, a2⟩ := splitScheme_wf h1 hs
          obtain ⟨b1, b2, b3⟩ := splitNetloc_wf h2 hn
          have hsafe : ∀ c, c ∈ netloc ∨ c ∈ s2 → isUnsafe c = false := fun c hc => safe_clean (a2 c (b3 c hc))
          have hdl : ∀ c, c ∈ dirPart (before (· == '?') (before (· == '#') s2)) ∨
              c ∈ lastPart (before (· == '?') (before (· == '#') s2)) →
              c ∈ before (· == '?') (before (· == '#') s2) := by
            intro c hc
            rw [← dir_last (before (· == '?') (before (· == '#') s2))]
            exact List.mem_append.2 hc
          have hlast : ∀ c ∈ lastPart (before (· == '?') (before (· == '#') s2)), c ≠ '/' ∧ c ≠ '?' ∧ c ≠ '#' :=
            fun c hc => ⟨fun e => last_none _ (e ▸ hc), (hpath c (hdl c (.inr hc))).1, (hpath c (hdl c (.inr hc))).2⟩
          have hhd := path_head b2
          have hla := last_append (dirPart (before (· == '?') (before (· == '#') s2)))
            (before (· == ';') (lastPart (before (· == '?') (before (· == '#') s2))))
            (fun hc => last_none _ (before_sub hc)) (dir_form _)
          refine ⟨a1, ⟨hn, b1⟩, hok, ?_, ?_, ?_, ?_, ?_, hq, ?_⟩
          · rcases hhd with he | he
            · left
              simp only [he]
              rfl
            · right
              have := dir_head he
              simp only
              rw [head_append]
              · exact this
              · intro h0; rw [h0] at this; cases this
          · intro c hc
            rcases List.mem_append.1 hc with hc | hc
            · exact hpath c (hdl c (.inl hc))
            · exact hpath c (hdl c (.inr (before_sub hc)))
          · exact fun c hc => hlast c (from_sub (List.mem_of_mem_tail hc))
          · intro hp
            refine ⟨hu, fun he => hp ?_⟩
            rcases hhd with h0 | h0
            · simp only [h0]
              rfl
            · have := dir_head h0
              simp only [List.append_eq_nil_iff] at he
              rw [he.1] at this
              cases this
          · intro _
            simp only
            rw [hla.2]
            intro hc
            have := before_none _ hc
            simp at this
          · intro c hc
            apply hsafe
            have hp2 : ∀ c, c ∈ before (· == '?') (before (· == '#') s2) → c ∈ s2 := fun c h => before_sub (before_sub h)
            rcases hc with hc | hc | hc | hc | hc
            · exact .inl hc
            · rcases List.mem_append.1 hc with hc | hc
              · exact .inr (hp2 c (hdl c (.inl hc)))
              · exact .inr (hp2 c (hdl c (.inr (before_sub hc))))
            · exact .inr (hp2 c (hdl c (.inr (from_sub (List.mem_of_mem_tail hc)))))
            · exact .inr (before_sub (from_sub (List.mem_of_mem_tail hc)))
            · exact .inr (from_sub (List.mem_of_mem_tail hc))
        · rw [if_neg hu] at h
          simp only [Except.ok.injEq] at h
          subst h
          obtain ⟨a1, a2⟩ := splitScheme_wf h1 hs
          obtain ⟨b1, b2, b3⟩ := splitNetloc_wf h2 hn
          have hsafe : ∀ c, c ∈ netloc ∨ c ∈ s2 → isUnsafe c = false := fun c hc => safe_clean (a2 c (b3 c hc))
          refine ⟨a1, ⟨hn, b1⟩, hok, path_head b2, hpath, fun c hc => (by cases hc), fun hp => absurd rfl hp,
            fun h' => absurd h' hu, hq, ?_⟩
          intro c hc
          apply hsafe
          rcases hc with hc | hc | hc | hc | hc
          · exact .inl hc
          · exact .inr (before_sub (before_sub hc))
          · cases hc
          · exact .inr (before_sub (from_sub (List.mem_of_mem_tail hc)))
          · exact .inr (from_sub (List.mem_of_mem_tail hc))
      · cases h

/-! ## Parsing what was written -/

theorem withSep_tail (sep : Char) (s : PyStr) : (withSep sep s).tail = s := by
  unfold withSep
  split
  · rename_i h; rw [h]; rfl
  · rfl

theorem withSep_head (sep : Char) (s : PyStr) : withSep sep s = [] ∨ ∃ c t, withSep sep s = c :: t ∧ c = sep := by
  unfold withSep
  split
  · exact .inl rfl
  · exact .inr ⟨sep, s, rfl, rfl⟩

theorem withSep_mem {sep c : Char} {s : PyStr} (h : c ∈ withSep sep s) : c = sep ∨ c ∈ s := by
  unfold withSep at h
  split at h
  · cases h
  · simpa using h

theorem scheme_char {c : Char} (h : (97 ≤ c.toNat ∧ c.toNat ≤ 122) ∨ (48 ≤ c.toNat ∧ c.toNat ≤ 57) ∨ c = '+' ∨ c = '-' ∨ c = '.') :
    isSchemeChar c = true ∧ lower c = c ∧ c ≠ ':' ∧ isUnsafe c = false := by
  rcases h with h | h | rfl | rfl | rfl
  · refine ⟨by simp [isSchemeChar, isLetter, h.1, h.2], lower_same (by omega), ?_, ?_⟩
    · rintro rfl; revert h; decide
    · simp only [isUnsafe, Bool.or_eq_false_iff, beq_eq_false_iff_ne]
      refine ⟨⟨?_, ?_⟩, ?_⟩ <;> (rintro rfl; revert h; decide)
  · refine ⟨by simp [isSchemeChar, h.1, h.2], lower_same (by omega), ?_, ?_⟩
    · rintro rfl; revert h; decide
    · simp only [isUnsafe, Bool.or_eq_false_iff, beq_eq_false_iff_ne]
      refine ⟨⟨?_, ?_⟩, ?_⟩ <;> (rintro rfl; revert h; decide)
  all_goals decide

/-- The text of a well-formed result. -/
theorem geturl_wf {E : UrlEnv} {r : Parsed} (h : WF E r) : geturl r = r.scheme ++ ':' :: '/' :: '/' ::
    (r.netloc ++ ((r.path ++ withSep ';' r.params) ++ (withSep '?' r.query ++ withSep '#' r.fragment))) := by
  unfold geturl
  simp only
  rw [if_neg]
  rintro ⟨h1, h2⟩
  rcases h.path with h3 | h3
  · by_cases h4 : r.params = []
    · rw [h3, h4] at h1; exact h1 rfl
    · exact (h.hasParams h4).2 h3
  · have : r.path ≠ [] := by intro e; rw [e] at h3; cases h3
    rw [head_append this] at h2
    exact h2 h3

theorem parse_geturl {E : UrlEnv} {r : Parsed} (h : WF E r) : urlparse E (geturl r) = .ok r := by
  rw [geturl_wf h]
  obtain ⟨c0, t0, hs0, hc0⟩ := h.scheme.1
  have hpc : ∀ c ∈ r.path ++ withSep ';' r.params, c ≠ '?' ∧ c ≠ '#' := by
    intro c hc
    rcases List.mem_append.1 hc with hc | hc
    · exact h.pathChars c hc
    · rcases withSep_mem hc with rfl | hc
      · decide
      · exact (h.params c hc).2
  -- nothing is cleaned away
  have hclean : ∀ tl : PyStr, (∀ c ∈ tl, isUnsafe c = false) →
      ((r.scheme ++ tl).dropWhile isControl).filter (fun c => !isUnsafe c) = r.scheme ++ tl := by
    intro tl htl
    have hd : (r.scheme ++ tl).dropWhile isControl = r.scheme ++ tl := by
      rw [hs0, List.cons_append, List.dropWhile_cons, if_neg]
      simp only [isControl, decide_eq_true_eq]
      omega
    rw [hd, List.filter_eq_self]
    intro c hc
    rcases List.mem_append.1 hc with hc | hc
    · simp [(scheme_char (h.scheme.2 c hc)).2.2.2]
    · simp [htl c hc]
  have hsep : ∀ c, c = ':' ∨ c = '/' ∨ c = ';' ∨ c = '?' ∨ c = '#' → isUnsafe c = false := by
    rintro c (rfl | rfl | rfl | rfl | rfl) <;> decide
  unfold urlparse
  simp only
  rw [hclean]
  · -- the scheme
    have hsch : ∀ tl : PyStr, splitScheme (r.scheme ++ ':' :: tl) = (r.scheme, tl) := by
      intro tl
      obtain ⟨h1, h2⟩ := before_append (p := (· == ':')) (a := r.scheme) (b := ':' :: tl)
        (fun c hc => by simpa using (scheme_char (h.scheme.2 c hc)).2.2.1) (.inr ⟨':', tl, rfl, by simp⟩)
      unfold splitScheme
      simp only [h1, h2]
      rw [if_pos]
      · have : r.scheme.map lower = r.scheme := by
          conv => rhs; rw [← List.map_id r.scheme]
          exact List.map_congr_left fun c hc => (scheme_char (h.scheme.2 c hc)).2.1
        rw [this]
        rfl
      · refine ⟨by simp, ?_, List.all_eq_true.2 fun c hc => (scheme_char (h.scheme.2 c hc)).1⟩
        rw [hs0]
        simp [isLetter, hc0.1, hc0.2]
    rw [hsch]
    simp only
    -- the network location
    have hP : (r.path ++ withSep ';' r.params) = [] ∨ (r.path ++ withSep ';' r.params).head? = some '/' := by
      rcases h.path with h3 | h3
      · by_cases h4 : r.params = []
        · left; rw [h3, h4]; rfl
        · exact absurd h3 (h.hasParams h4).2
      · right
        rw [head_append (by intro e; rw [e] at h3; cases h3)]
        exact h3
    have hrest : (r.path ++ withSep ';' r.params) ++ (withSep '?' r.query ++ withSep '#' r.fragment) = [] ∨
        ∃ c t, (r.path ++ withSep ';' r.params) ++ (withSep '?' r.query ++ withSep '#' r.fragment) = c :: t ∧
          endsNetloc c = true := by
      rcases hP with hP | hP
      · rw [hP, List.nil_append]
        rcases withSep_head '?' r.query with hq | ⟨c, t, hq, rfl⟩
        · rw [hq, List.nil_append]
          rcases withSep_head '#' r.fragment with hf | ⟨c, t, hf, rfl⟩
          · exact .inl hf
          · exact .inr ⟨_, t, hf, by decide⟩
        · rw [hq]; exact .inr ⟨_, _, rfl, by decide⟩
      · right
        cases he : r.path ++ withSep ';' r.params with
        | nil => rw [he] at hP; cases hP
        | cons c t => rw [he] at hP; cases hP; exact ⟨_, _, rfl, by decide⟩
    obtain ⟨h1, h2⟩ := before_append (p := endsNetloc) (a := r.netloc) (fun c hc => by
      obtain ⟨a, b, c'⟩ := h.netloc.2 c hc
      simp [endsNetloc, a, b, c']) hrest
    simp only [splitNetloc, h1, h2, h.netOk, if_true]
    -- fragment and query
    obtain ⟨f1, f2⟩ := before_append (p := (· == '#')) (a := (r.path ++ withSep ';' r.params) ++ withSep '?' r.query)
      (b := withSep '#' r.fragment) (by
        intro c hc
        simp only [beq_eq_false_iff_ne]
        rcases List.mem_append.1 hc with hc | hc
        · exact (hpc c hc).2
        · rcases withSep_mem hc with rfl | hc
          · decide
          · rintro rfl; exact h.query hc)
      ((withSep_head '#' r.fragment).imp id (fun ⟨c, t, e, ec⟩ => ⟨c, t, e, by simp [ec]⟩))
    rw [List.append_assoc] at f1 f2
    obtain ⟨q1, q2⟩ := before_append (p := (· == '?')) (a := r.path ++ withSep ';' r.params)
      (b := withSep '?' r.query) (fun c hc => by simpa using (hpc c hc).1)
      ((withSep_head '?' r.query).imp id (fun ⟨c, t, e, ec⟩ => ⟨c, t, e, by simp [ec]⟩))
    simp only [f1, f2, q1, q2, withSep_tail]
    by_cases hu : E.usesParams r.scheme = true
    · rw [if_pos hu]
      have hnl : '/' ∉ lastPart r.path ++ withSep ';' r.params := by
        intro hc
        rcases List.mem_append.1 hc with hc | hc
        · exact last_none _ hc
        · rcases withSep_mem hc with hc | hc
          · revert hc; decide
          · exact (h.params _ hc).1 rfl
      obtain ⟨l1, l2⟩ := last_append (dirPart r.path) _ hnl (dir_form _)
      rw [← List.append_assoc, dir_last] at l1 l2
      obtain ⟨p1, p2⟩ := before_append (p := (· == ';')) (a := lastPart r.path) (b := withSep ';' r.params)
        (fun c hc => by simp only [beq_eq_false_iff_ne]; rintro rfl; exact h.noParams hu hc)
        ((withSep_head ';' r.params).imp id (fun ⟨c, t, e, ec⟩ => ⟨c, t, e, by simp [ec]⟩))
      rw [l1, l2, p1, p2, dir_last, withSep_tail]
    · rw [if_neg hu]
      have hp : r.params = [] := by
        by_cases hp : r.params = []
        · exact hp
        · exact absurd (h.hasParams hp).1 hu
      have : r.path ++ withSep ';' r.params = r.path := by rw [hp]; simp [withSep]
      rw [this, ← hp]
  · intro c hc
    simp only [List.mem_cons, List.mem_append] at hc
    rcases hc with rfl | rfl | rfl | hc | (hc | hc) | (hc | hc)
    · decide
    · decide
    · decide
    · exact h.safe c (.inl hc)
    · exact h.safe c (.inr (.inl hc))
    · rcases withSep_mem hc with rfl | hc
      · decide
      · exact h.safe c (.inr (.inr (.inl hc)))
    · rcases withSep_mem hc with rfl | hc
      · decide
      · exact h.safe c (.inr (.inr (.inr (.inl hc))))
    · rcases withSep_mem hc with rfl | hc
      · decide
      · exact h.safe c (.inr (.inr (.inr (.inr hc))))

/-- The parts without the removed ones. -/
def stripped (o : UrlOpts) (r : Parsed) : Parsed := { r with
  params := if o.removeParameters then [] else r.params
  query := if o.removeParameters then [] else r.query
  fragment := if o.removeFragment then [] else r.fragment }

theorem ite_mem {b : Bool} {s : PyStr} {c : Char} (h : c ∈ (if b then [] else s)) : c ∈ s := by
  cases b
  · exact h
  · cases h

theorem stripped_wf {E : UrlEnv} {o : UrlOpts} {r : Parsed} (h : WF E r) : WF E (stripped o r) where
  scheme := h.scheme
  netloc := h.netloc
  netOk := h.netOk
  path := h.path
  pathChars := h.pathChars
  params := fun c hc => h.params c (ite_mem hc)
  hasParams := fun hp => h.hasParams fun e => hp (by
    show (if o.removeParameters then [] else r.params) = []
    rw [e]; split <;> rfl)
  noParams := h.noParams
  query := fun hc => h.query (ite_mem hc)
  safe := fun c hc => h.safe c (hc.imp id (Or.imp id (Or.imp ite_mem (Or.imp ite_mem ite_mem))))

theorem validate_inv {E : UrlEnv} {o : UrlOpts} {s t : PyStr} (h : validate E o s = .ok t) :
    ∃ r, urlparse E s = .ok r ∧ WF E r ∧ t = geturl (stripped o r) := by
  unfold validate at h
  cases hp : urlparse E s with
  | error e => rw [hp] at h; cases h
  | ok r =>
    rw [hp] at h
    simp only at h
    split at h
    · cases h
    · rename_i hne
      have : r.scheme ≠ [] ∧ r.netloc ≠ [] := by
        constructor <;> (intro e; exact hne (by simp [e]))
      cases h
      exact ⟨r, rfl, urlparse_wf hp this.1 this.2, rfl⟩

theorem opt_withSep (sep : Char) (s : PyStr) : Opt sep s (withSep sep s) := by
  unfold withSep
  split
  · rename_i h; exact .inl ⟨h, rfl⟩
  · rename_i h; exact .inr ⟨h, rfl⟩

/-- C52: the result is a URL with a scheme and a network location, without the
parts that are to be removed, and with the other parts of the text given. -/
theorem C52_normal (E : UrlEnv) (o : UrlOpts) (s t : PyStr) (h : validate E o s = .ok t) :
    ∃ scheme netloc dir seg params query fragment, IsUrl t scheme netloc dir seg params query fragment ∧
      (o.removeParameters = true → params = [] ∧ query = [] ∧ (E.usesParams scheme = true → ';' ∉ seg)) ∧
      (o.removeFragment = true → fragment = []) ∧
      ∃ r, urlparse E s = .ok r ∧ scheme = r.scheme ∧ netloc = r.netloc ∧ dir ++ seg = r.path ∧
        (o.removeParameters = false → params = r.params ∧ query = r.query) ∧
        (o.removeFragment = false → fragment = r.fragment) := by
  obtain ⟨r, hp, hw, rfl⟩ := validate_inv h
  have hw' := stripped_wf (o := o) hw
  refine ⟨r.scheme, r.netloc, dirPart r.path, lastPart r.path, (stripped o r).params, (stripped o r).query,
    (stripped o r).fragment, ⟨⟨_, _, _, opt_withSep _ _, opt_withSep _ _, opt_withSep _ _, ?_⟩, hw.scheme, hw.netloc,
      ?_, ?_, hw'.params, hw'.query⟩, ?_, ?_, r, hp, rfl, rfl, dir_last _, ?_, ?_⟩
  · rw [geturl_wf hw']
    have := dir_last r.path
    simp only [stripped, List.append_assoc, List.cons_append, List.nil_append]
    rw [← List.append_assoc (dirPart r.path), this]
  · rcases hw.path with h0 | h0
    · left
      refine ⟨by rw [h0]; rfl, by rw [h0]; rfl, ?_⟩
      by_cases hp' : (stripped o r).params = []
      · exact hp'
      · exact absurd h0 (hw'.hasParams hp').2
    · right
      have hd := dir_head h0
      refine ⟨hd, ?_, fun c hc => hw.pathChars c (by rw [← dir_last r.path]; exact List.mem_append_left _ hc)⟩
      rcases dir_form r.path with h1 | h1
      · rw [h1] at hd; cases hd
      · exact h1
  · intro c hc
    have := hw.pathChars c (by rw [← dir_last r.path]; exact List.mem_append_right _ hc)
    exact ⟨fun e => last_none _ (e ▸ hc), this.1, this.2⟩
  · intro ho
    exact ⟨by simp [stripped, ho], by simp [stripped, ho], fun hu => hw.noParams hu⟩
  · intro ho
    simp [stripped, ho]
  · intro ho
    simp [stripped, ho]
  · intro ho
    simp [stripped, ho]

/-- C52: validating a second time changes nothing. -/
theorem C52_idempotent (E : UrlEnv) (o : UrlOpts) (s t : PyStr) (h : validate E o s = .ok t) : validate E o t = .ok t := by
  obtain ⟨r, hp, hw, rfl⟩ := validate_inv h
  have hw' := stripped_wf (o := o) hw
  unfold validate
  rw [parse_geturl hw']
  have h1 : (stripped o r).scheme ≠ [] := by
    obtain ⟨c, t, h, _⟩ := hw'.scheme.1
    rw [h]; simp
  simp only
  rw [if_neg (fun e => e.elim h1 hw'.netloc.1)]
  congr 2
  unfold stripped
  cases o.removeParameters <;> cases o.removeFragment <;> rfl

/-- C52, in characters: with both options the result has no `#` and no `?`. -/
theorem C52_removed (E : UrlEnv) (s t : PyStr) (h : validate E ⟨true, true⟩ s = .ok t) : '#' ∉ t ∧ '?' ∉ t := by
  obtain ⟨scheme, netloc, dir, seg, params, query, fragment, hu, hr, hf, _⟩ := C52_normal E _ s t h
  obtain ⟨p, q, f, hp, hq, hff, rfl⟩ := hu.text
  obtain ⟨e1, e2, _⟩ := hr rfl
  have e3 := hf rfl
  subst e1 e2 e3
  have hp0 : p = [] := hp.elim (fun h => h.2) (fun h => absurd rfl h.1)
  have hq0 : q = [] := hq.elim (fun h => h.2) (fun h => absurd rfl h.1)
  have hf0 : f = [] := hff.elim (fun h => h.2) (fun h => absurd rfl h.1)
  subst hp0 hq0 hf0
  have key : ∀ x, x = '#' ∨ x = '?' → x ∉ scheme ++ s% "://" ++ netloc ++ dir ++ seg ++ [] ++ [] ++ [] := by
    intro x hx hc
    simp only [List.append_nil, List.mem_append, List.mem_cons, List.not_mem_nil, or_false] at hc
    rcases hc with (((hc | hc) | hc) | hc) | hc
    · rcases hx with rfl | rfl <;> (have := hu.scheme.2 _ hc; revert this; decide)
    · rcases hx with rfl | rfl <;> (revert hc; decide)
    · rcases hx with rfl | rfl
      · exact (hu.netloc.2 _ hc).2.2 rfl
      · exact (hu.netloc.2 _ hc).2.1 rfl
    · rcases hu.dir with h0 | h0
      · rw [h0.1] at hc; cases hc
      · rcases hx with rfl | rfl
        · exact (h0.2.2 _ hc).2 rfl
        · exact (h0.2.2 _ hc).1 rfl
    · rcases hx with rfl | rfl
      · exact (hu.seg _ hc).2.2 rfl
      · exact (hu.seg _ hc).2.1 rfl
  exact ⟨key _ (.inl rfl), key _ (.inr rfl)⟩

/-! ## Concrete cases -/

/-- The table of the library, in part. -/
def demoEnv : UrlEnv := ⟨fun _ => true, fun s => s == s% "http" || s == s% "https"⟩

/-- Parts are removed, the scheme is in lower case; empty parts disappear. -/
theorem C52_example :
    validate demoEnv ⟨true, false⟩ (s% "  HTTP://Host:80/a;b/c;d=1?q=1#frag?x") = .ok (s% "http://Host:80/a;b/c#frag?x") ∧
    validate demoEnv ⟨false, false⟩ (s% "https://h/p;?#") = .ok (s% "https://h/p") ∧
    validate demoEnv ⟨false, false⟩ (s% "host/path") = .error .validation ∧
    validate demoEnv ⟨false, false⟩ (s% "http:/host/path") = .error .validation := by
  refine ⟨?_, ?_, ?_, ?_⟩ <;> with_unfolding_all rfl

/-- A scheme without parameters in the library's table: `remove_parameters`
leaves the semicolon part. -/
theorem C52_other_scheme :
    validate demoEnv ⟨true, false⟩ (s% "s3://bucket/a;b?c") = .ok (s% "s3://bucket/a;b") := by
  with_unfolding_all rfl

/-- A network location that `urlsplit` refuses raises a plain ValueError, not the
property's error. -/
theorem C52_value_error (o : UrlOpts) :
    validate ⟨fun s => !s.contains '[', fun _ => false⟩ o (s% "http://[::1/") = .error .value := by
  with_unfolding_all rfl

end Verif.Url
