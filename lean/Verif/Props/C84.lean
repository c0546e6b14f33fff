import Verif.Models.JsonCopy
import Verif.Spec.JsonText
import Verif.Props.C22
import Verif.Props.C24

/-!
# C84: what passes through a JSON text
-/

namespace Verif
open Spec

/-! ## Keys -/

theorem keyText_iff {F : PyFloat → PyStr} {k : Val} {t : PyStr} : keyText F k = some t ↔ KeyIs F k t := by
  constructor
  · intro h
    cases k <;> first | (cases h; done) | skip
    case none => cases h; exact .none
    case bool b => cases b <;> (cases h; constructor)
    case int i => cases h; exact .int i
    case float f => cases h; exact .float f
    case str s => cases h; exact .str _
  · intro h
    cases h <;> rfl

theorem jsonKey_text {F : PyFloat → PyStr} {k : Val} : JsonKey k ↔ ∃ t, KeyIs F k t := by
  constructor
  · intro h
    cases h
    case none => exact ⟨_, .none⟩
    case bool b => cases b <;> exact ⟨_, by constructor⟩
    case int i => exact ⟨_, .int i⟩
    case float f => exact ⟨_, .float f⟩
    case str s => exact ⟨_, .str s⟩
  · rintro ⟨t, h⟩
    cases h <;> constructor

theorem keyIs_det {F : PyFloat → PyStr} {k : Val} {s t : PyStr} (h : KeyIs F k s) (h' : KeyIs F k t) :
    s = t := by
  have h := keyText_iff.2 h
  rw [keyText_iff.2 h'] at h
  exact (Option.some.inj h).symm

/-! ## Dictionaries with text keys -/

/-- All keys are texts. -/
def TextKeys (l : List (Val × Val)) : Prop := ∀ kv ∈ l, ∃ t, kv.1 = .str t

theorem textKeys_nodup {l : List (Val × Val)} (h : TextKeys l) : ((dictOfPairs l).map (·.1)).Nodup := by
  induction l using List.reverseRecOn with
  | nil => exact List.nodup_nil
  | append_singleton l q ih =>
    obtain ⟨t, ht⟩ := h q (by simp)
    rw [dictOfPairs_snoc, ht]
    exact dictSet_str_nodup (ih fun kv hkv => h kv (by simp [hkv])) t _

/-- Of entries with the same key the last one stays. -/
theorem textKeys_mem {l : List (Val × Val)} (h : TextKeys l) {k y : Val} :
    (k, y) ∈ dictOfPairs l ↔ ∃ pre post, l = pre ++ (k, y) :: post ∧ ∀ e ∈ post, e.1 ≠ k := by
  induction l using List.reverseRecOn with
  | nil => simp [dictOfPairs]
  | append_singleton l q ih =>
    obtain ⟨t, ht⟩ := h q (by simp)
    have hl : TextKeys l := fun kv hkv => h kv (by simp [hkv])
    rw [dictOfPairs_snoc, ht, mem_dictSet_str (textKeys_nodup hl), ih hl]
    constructor
    · rintro (⟨rfl, rfl⟩ | ⟨hk, pre, post, rfl, hp⟩)
      · exact ⟨l, [], by rw [← ht], by simp⟩
      · refine ⟨pre, post ++ [q], by simp, fun e he => ?_⟩
        rcases List.mem_append.1 he with he | he
        · exact hp e he
        · rw [List.mem_singleton.1 he, ht]
          exact fun h => hk h.symm
    · rintro ⟨pre, post, he, hp⟩
      rcases List.eq_nil_or_concat post with rfl | ⟨post', e, rfl⟩
      · have he := List.append_inj' he rfl
        obtain ⟨_, he⟩ := he
        cases he
        exact .inl ⟨ht, rfl⟩
      · rw [List.concat_eq_append, ← List.cons_append, ← List.append_assoc] at he
        obtain ⟨h1, h2⟩ := List.append_inj' he rfl
        cases h2
        refine .inr ⟨fun hk => hp q (by simp) (by rw [ht, hk]), pre, post', h1, fun e he => hp e (by simp [he])⟩

theorem textKeys_pairwise {l : List (Val × Val)} (h : TextKeys l) (hd : (l.map (·.1)).Nodup) :
    (l.map (·.1)).Pairwise (fun a b => pyEq a b = false) := by
  refine List.Pairwise.imp_of_mem (fun {a b} ha hb hab => ?_) hd
  obtain ⟨x, hx, rfl⟩ := List.mem_map.1 ha
  obtain ⟨y, hy, rfl⟩ := List.mem_map.1 hb
  obtain ⟨t, ht⟩ := h y hy
  rw [ht] at hab ⊢
  cases hp : pyEq x.1 (.str t)
  · rfl
  · exact absurd (pyEq_str_key hp) hab

theorem last_unique {α : Type} {f : α → Val} {a b : α} {l1 l2 m1 m2 : List α}
    (h : l1 ++ a :: l2 = m1 ++ b :: m2) (hf : f a = f b) (hl : ∀ x ∈ l2, f x ≠ f a)
    (hm : ∀ x ∈ m2, f x ≠ f b) : a = b := by
  rcases List.append_eq_append_iff.1 h with ⟨c, rfl, h2⟩ | ⟨c, rfl, h2⟩
  · cases c with
    | nil => cases h2; rfl
    | cons x c =>
      cases h2
      exact absurd hf.symm (hl b (by simp))
  · cases c with
    | nil => cases h2; rfl
    | cons x c =>
      cases h2
      exact absurd hf (hm a (by simp))

/-! ## What is read -/

/-- What is known of an entry and the entry read for it. -/
def EntryRead (F : PyFloat → PyStr) (kv e : Val × Val) : Prop :=
  (∃ t, e.1 = .str t ∧ KeyIs F kv.1 t) ∧ Writable kv.2 ∧ AsText e.2 ∧ ReadFrom F kv.2 e.2

theorem entries_textKeys {F : PyFloat → PyStr} {kvs l : List (Val × Val)}
    (h : List.Forall₂ (EntryRead F) kvs l) : TextKeys l := fun e he => by
  obtain ⟨kv, _, ⟨t, ht, _⟩, _⟩ := forall₂_right h he
  exact ⟨t, ht⟩

theorem forall₂_of_mem {α β : Type} {R : α → β → Prop} : ∀ {xs : List α} {ys : List β} {x : α},
    List.Forall₂ R xs ys → x ∈ xs → ∃ y ∈ ys, R x y
  | _ :: _, _ :: _, _, .cons h hs, hm => by
    rcases List.mem_cons.1 hm with rfl | hm
    · exact ⟨_, by simp, h⟩
    · obtain ⟨y, hy, h⟩ := forall₂_of_mem hs hm
      exact ⟨y, by simp [hy], h⟩

theorem forall₂_split {α β : Type} {R : α → β → Prop} {pre post : List α} {a : α} {l : List β}
    (h : List.Forall₂ R (pre ++ a :: post) l) :
    ∃ l1 b l2, l = l1 ++ b :: l2 ∧ R a b ∧ List.Forall₂ R post l2 := by
  induction pre generalizing l with
  | nil => cases h with
    | cons h hs => exact ⟨[], _, _, rfl, h, hs⟩
  | cons x pre ih => cases h with
    | cons h hs =>
      obtain ⟨l1, b, l2, rfl, h1, h2⟩ := ih hs
      exact ⟨_ :: l1, b, l2, rfl, h1, h2⟩

theorem entries_readFrom {F : PyFloat → PyStr} {kvs l : List (Val × Val)}
    (h : List.Forall₂ (EntryRead F) kvs l) : ReadFrom F (.dict kvs) (.dict (dictOfPairs l)) := by
  have hk := entries_textKeys h
  refine .dict kvs _ (textKeys_nodup hk) (fun k => ?_) fun t x y hy ⟨pre, k, post, hl, h1, h2⟩ => ?_
  · constructor
    · intro hm
      obtain ⟨⟨k', y⟩, hmem, rfl⟩ := List.mem_map.1 hm
      obtain ⟨pre, post, rfl, _⟩ := (textKeys_mem hk).1 hmem
      obtain ⟨kv, hkv, ⟨t, h1, h2⟩, _⟩ := forall₂_right h (y := (k', y)) (by simp)
      exact ⟨t, h1, kv, hkv, h2⟩
    · rintro ⟨t, rfl, kv, hkv, ht⟩
      obtain ⟨pre, post, rfl⟩ := List.append_of_mem hkv
      obtain ⟨l1, b, l2, rfl, ⟨⟨t', h1, h2⟩, _⟩, _⟩ := forall₂_split h
      cases keyIs_det ht h2
      rw [dictOfPairs_keys, ← h1]
      have hm : b.1 ∈ (l1 ++ b :: l2).map (·.1) := List.mem_map_of_mem (f := Prod.fst) (by simp)
      rw [← dictOfPairs_keys]
      clear h
      generalize l1 ++ b :: l2 = l at hk hm
      induction l using List.reverseRecOn with
      | nil => cases hm
      | append_singleton l q ih =>
        rw [dictOfPairs_snoc, dictSet_keys]
        rw [List.map_append, List.mem_append] at hm
        rcases hm with hm | hm
        · have := ih (fun kv hkv => hk kv (by simp [hkv])) hm
          split
          · exact this
          · simp [this]
        · simp only [List.map_cons, List.map_nil, List.mem_singleton] at hm
          split
          · rename_i ha
            obtain ⟨x, hx, hx'⟩ := List.any_eq_true.1 ha
            rw [← hm, h1] at hx'
            rw [h1, ← pyEq_str_key hx']
            exact hx
          · simp [hm]
  · subst hl
    obtain ⟨l1, b, l2, hb, ⟨⟨t', h3, h4⟩, _, _, h5⟩, h6⟩ := forall₂_split h
    cases keyIs_det h1 h4
    obtain ⟨m1, m2, hm, h7⟩ := (textKeys_mem hk).1 hy
    rw [hb] at hm
    have := last_unique (f := Prod.fst) hm h3 (fun e he h => by
      obtain ⟨kv, hkv, ⟨t'', h8, h9⟩, _⟩ := forall₂_right h6 he
      rw [h8, h3] at h
      cases h
      exact h2 kv hkv h9) h7
    rw [this] at h5
    exact h5

theorem entries_asText {F : PyFloat → PyStr} {kvs l : List (Val × Val)}
    (h : List.Forall₂ (EntryRead F) kvs l) : AsText (.dict (dictOfPairs l)) := by
  have hk := entries_textKeys h
  have hm : ∀ kv ∈ dictOfPairs l, kv ∈ l := fun kv hkv => by
    obtain ⟨pre, post, rfl, _⟩ := (textKeys_mem (k := kv.1) (y := kv.2) hk).1 hkv
    simp
  refine .dict _ (fun kv hkv => hk kv (hm kv hkv)) (textKeys_nodup hk) fun kv hkv => ?_
  obtain ⟨_, _, _, _, h1, _⟩ := forall₂_right h (hm kv hkv)
  exact h1

mutual
theorem jsonText_sound {F : PyFloat → PyStr} : ∀ (v : Val) {j : Val}, jsonText F v = some j →
    Writable v ∧ AsText j ∧ ReadFrom F v j
  | .none, _, h => by cases h; exact ⟨.atom _ .none, .atom _ .none, .atom _ .none⟩
  | .bool b, _, h => by cases h; exact ⟨.atom _ (.bool b), .atom _ (.bool b), .atom _ (.bool b)⟩
  | .int i, _, h => by cases h; exact ⟨.atom _ (.int i), .atom _ (.int i), .atom _ (.int i)⟩
  | .float i, _, h => by cases h; exact ⟨.atom _ (.float i), .atom _ (.float i), .atom _ (.float i)⟩
  | .str i, _, h => by cases h; exact ⟨.atom _ (.str i), .atom _ (.str i), .atom _ (.str i)⟩
  | .list xs, j, h => by
    unfold jsonText at h
    obtain ⟨ys, h1, rfl⟩ := Option.map_eq_some_iff.1 h
    have hf := jsonTextL_sound xs h1
    exact ⟨.list _ fun x hx => by obtain ⟨_, _, h, _⟩ := forall₂_of_mem hf hx; exact h,
      .list _ fun y hy => by obtain ⟨_, _, _, h, _⟩ := forall₂_right hf hy; exact h,
      .list _ _ hf.length_eq fun i x y hx hy => (forall₂_get hf i x y hx hy).2.2⟩
  | .tup xs, j, h => by
    unfold jsonText at h
    obtain ⟨ys, h1, rfl⟩ := Option.map_eq_some_iff.1 h
    have hf := jsonTextL_sound xs h1
    exact ⟨.tup _ fun x hx => by obtain ⟨_, _, h, _⟩ := forall₂_of_mem hf hx; exact h,
      .list _ fun y hy => by obtain ⟨_, _, _, h, _⟩ := forall₂_right hf hy; exact h,
      .tup _ _ hf.length_eq fun i x y hx hy => (forall₂_get hf i x y hx hy).2.2⟩
  | .dict kvs, j, h => by
    unfold jsonText at h
    obtain ⟨l, h1, rfl⟩ := Option.map_eq_some_iff.1 h
    have hf := jsonTextD_sound kvs h1
    refine ⟨.dict _ (fun kv hkv => ?_) fun kv hkv => ?_, entries_asText hf, entries_readFrom hf⟩
    · obtain ⟨_, _, ⟨t, _, h⟩, _⟩ := forall₂_of_mem hf hkv
      exact jsonKey_text.2 ⟨t, h⟩
    · obtain ⟨_, _, _, h, _⟩ := forall₂_of_mem hf hkv
      exact h
  | .undef, _, h | .cplx _ _, _, h | .dt _, _, h | .uuid _, _, h | .set _, _, h | .obj _, _, h
  | .opq _, _, h => by unfold jsonText at h; cases h
theorem jsonTextL_sound {F : PyFloat → PyStr} : ∀ (xs : List Val) {ys : List Val},
    jsonTextL F xs = some ys →
    List.Forall₂ (fun x y => Writable x ∧ AsText y ∧ ReadFrom F x y) xs ys
  | [], _, h => by cases h; exact .nil
  | x :: xs, _, h => by
    unfold jsonTextL at h
    split at h
    · rename_i h1 h2
      cases h
      exact .cons (jsonText_sound x h1) (jsonTextL_sound xs h2)
    · cases h
theorem jsonTextD_sound {F : PyFloat → PyStr} : ∀ (kvs : List (Val × Val)) {l : List (Val × Val)},
    jsonTextD F kvs = some l → List.Forall₂ (EntryRead F) kvs l
  | [], _, h => by cases h; exact .nil
  | (k, x) :: kvs, _, h => by
    unfold jsonTextD at h
    split at h
    · rename_i h1 h2 h3
      cases h
      exact .cons ⟨⟨_, rfl, keyText_iff.1 h1⟩, jsonText_sound x h2⟩ (jsonTextD_sound kvs h3)
    · cases h
end

theorem jsonTextL_some {F : PyFloat → PyStr} {xs : List Val} (h : ∀ x ∈ xs, ∃ y, jsonText F x = some y) :
    ∃ ys, jsonTextL F xs = some ys := by
  induction xs with
  | nil => exact ⟨[], rfl⟩
  | cons x xs ih =>
    obtain ⟨y, hy⟩ := h x (by simp)
    obtain ⟨ys, hys⟩ := ih fun x hx => h x (by simp [hx])
    exact ⟨y :: ys, by unfold jsonTextL; rw [hy, hys]⟩

theorem jsonTextD_some {F : PyFloat → PyStr} {kvs : List (Val × Val)} (hk : ∀ kv ∈ kvs, JsonKey kv.1)
    (h : ∀ kv ∈ kvs, ∃ y, jsonText F kv.2 = some y) : ∃ l, jsonTextD F kvs = some l := by
  induction kvs with
  | nil => exact ⟨[], rfl⟩
  | cons kv kvs ih =>
    obtain ⟨k, x⟩ := kv
    obtain ⟨t, ht⟩ := jsonKey_text.1 (hk (k, x) (by simp))
    obtain ⟨y, hy⟩ := h (k, x) (by simp)
    obtain ⟨l, hl⟩ := ih (fun x hx => hk x (by simp [hx])) fun x hx => h x (by simp [hx])
    exact ⟨(.str t, y) :: l, by unfold jsonTextD; rw [keyText_iff.2 ht, hy, hl]⟩

/-- C84: a value can be written as JSON exactly if it is made of None, booleans,
numbers, texts, lists, tuples, and dictionaries with keys of the first four kinds. -/
theorem C84_defined {F : PyFloat → PyStr} {v : Val} : (∃ j, jsonText F v = some j) ↔ Writable v := by
  constructor
  · rintro ⟨j, h⟩
    exact (jsonText_sound v h).1
  · intro h
    induction h with
    | atom v h => cases h <;> exact ⟨_, rfl⟩
    | list xs _ ih =>
      obtain ⟨ys, h⟩ := jsonTextL_some ih
      exact ⟨.list ys, by unfold jsonText; rw [h]; rfl⟩
    | tup xs _ ih =>
      obtain ⟨ys, h⟩ := jsonTextL_some ih
      exact ⟨.list ys, by unfold jsonText; rw [h]; rfl⟩
    | dict kvs hk _ ih =>
      obtain ⟨l, h⟩ := jsonTextD_some hk ih
      exact ⟨.dict (dictOfPairs l), by unfold jsonText; rw [h]; rfl⟩

/-- C84: what is read, and that it is what a JSON text can describe. -/
theorem C84_read {F : PyFloat → PyStr} {v j : Val} (h : jsonText F v = some j) : AsText j ∧ ReadFrom F v j :=
  (jsonText_sound v h).2

theorem jsonTextL_same {F : PyFloat → PyStr} {xs : List Val} (h : ∀ x ∈ xs, jsonText F x = some x) :
    jsonTextL F xs = some xs := by
  induction xs with
  | nil => rfl
  | cons x xs ih =>
    unfold jsonTextL
    rw [h x (by simp), ih fun x hx => h x (by simp [hx])]

theorem jsonTextD_same {F : PyFloat → PyStr} {kvs : List (Val × Val)} (hk : TextKeys kvs)
    (h : ∀ kv ∈ kvs, jsonText F kv.2 = some kv.2) : jsonTextD F kvs = some kvs := by
  induction kvs with
  | nil => rfl
  | cons kv kvs ih =>
    obtain ⟨k, x⟩ := kv
    obtain ⟨t, ht⟩ := hk (k, x) (by simp)
    cases ht
    have hx : jsonText F x = some x := h (.str t, x) (by simp)
    unfold jsonTextD
    rw [hx, ih (fun x hx => hk x (by simp [hx])) fun x hx => h x (by simp [hx])]
    rfl

/-- C84: data with distinct text keys comes back as it was. -/
theorem C84_same {F : PyFloat → PyStr} {v : Val} (h : AsText v) : jsonText F v = some v := by
  induction h with
  | atom v h => cases h <;> rfl
  | list xs _ ih => unfold jsonText; rw [jsonTextL_same ih]; rfl
  | dict kvs hk hd _ ih =>
    unfold jsonText
    rw [jsonTextD_same hk ih]
    show some (Val.dict (dictOfPairs kvs)) = _
    rw [dictOfPairs_pairwise (textKeys_pairwise hk hd)]

/-- C84: a second passage changes nothing. -/
theorem C84_again {F : PyFloat → PyStr} {v j : Val} (h : jsonText F v = some j) : jsonText F j = some j :=
  C84_same (C84_read h).1

theorem asText_json {v : Val} (h : AsText v) : Json v := by
  induction h with
  | atom v h => cases h <;> constructor
  | list xs _ ih => exact .list _ ih
  | dict kvs hk _ _ ih =>
    refine .dict _ (fun kv hkv => ?_) ih
    obtain ⟨t, ht⟩ := hk kv hkv
    rw [ht]
    exact .str t

theorem asText_noRef {v : Val} (h : AsText v) (r : Nat) : ¬ RefIn r v := by
  induction h with
  | atom v h => intro hr; cases h <;> cases hr
  | list xs _ ih => intro hr; cases hr with | list _ x hx h => exact ih x hx h
  | dict kvs hk _ _ ih =>
    intro hr
    cases hr with
    | key _ kv hkv h =>
      obtain ⟨t, ht⟩ := hk kv hkv
      rw [ht] at h
      cases h
    | value _ kv hkv h => exact ih kv hkv h

/-- C84: what C22, C69 and the other theorems assume of `jsonCopy` holds when it
is this function. -/
theorem C84_assumed {E : Env} {F : PyFloat → PyStr} (h : E.jsonCopy = jsonText F) :
    JsonCopies E ∧ ∀ O v j, E.jsonCopy v = some j → Only O j := by
  unfold JsonCopies
  rw [h]
  refine ⟨fun v j hj => ?_, fun O v j hj r hr => absurd hr (asText_noRef (C84_read hj).1 r)⟩
  refine ⟨asText_json (C84_read hj).1, ?_⟩
  rintro rfl
  obtain ⟨_, h⟩ := C84_read hj
  cases h
  rfl

/-! ## What `serialize()` returns -/

theorem writesText_str {E : Env} {w : World} {ty : PropTy} {v j : Val} (ht : WritesText ty)
    (ha : Admits E w ty v) (h : scalarToJson E ty v = some (.ok j)) : ∃ t, j = .str t := by
  cases ha <;> first | exact ht.elim | (cases h; exact ⟨_, rfl⟩)

theorem scalar_asText {E : Env} {w : World} {ty : PropTy} {v j : Val} (ha : Admits E w ty v)
    (hs : ScalarTy ty) (hany : ty ≠ .any) (h : scalarToJson E ty v = some (.ok j)) : AsText j := by
  have hj := scalar_json ha (fun h => absurd h hany) h
  cases hj
  case none => exact .atom _ .none
  case bool b => exact .atom _ (.bool b)
  case int b => exact .atom _ (.int b)
  case float b => exact .atom _ (.float b)
  case str b => exact .atom _ (.str b)
  case list xs hx =>
    refine .list _ fun x hx => ?_
    cases ha <;> first | exact hs.elim | exact absurd rfl hany | skip
    case color hv =>
      obtain ⟨a, b, c, rfl, ha, hb, hc⟩ := hv
      cases h
      simp only [List.mem_cons, List.not_mem_nil, or_false] at hx
      rcases hx with rfl | rfl | rfl
      all_goals
        rename IsByte x => hbyte
        rcases hbyte with ⟨i, rfl, _⟩ | ⟨b, rfl⟩
        · exact .atom _ (.int i)
        · exact .atom _ (.bool b)
    case float => unfold scalarToJson at h; simp only [Option.some.injEq] at h; split at h <;> cases h
    all_goals cases h
  case dict kvs _ _ =>
    cases ha <;> first | exact hs.elim | exact absurd rfl hany | skip
    case color hv => obtain ⟨a, b, c, rfl, ha, hb, hc⟩ := hv; cases h
    case float => unfold scalarToJson at h; simp only [Option.some.injEq] at h; split at h <;> cases h
    all_goals cases h

theorem textKeyedAll_mem : ∀ {ps : List PropSpec} {p : PropSpec}, TextKeyedAll ps → p ∈ ps → TextKeyed p
  | _ :: _, _, ⟨h, hs⟩, hm => by
    rcases List.mem_cons.1 hm with rfl | hm
    · exact h
    · exact textKeyedAll_mem hs hm

theorem textKeyed_inv {p : PropSpec} (h : TextKeyed p) : p.ser = none ∧ TextKeyedTy p.ty := by
  obtain ⟨r, s, d, df, ty⟩ := p
  exact h

theorem serF_names {E : Env} {w : World} {ic : Bool} :
    ∀ {c : ClsId} {b : List (PyStr × Val)} {data : List (Val × Val)}, SerF E w ic c b data →
    data.map (·.1) = b.map (fun x => Val.str x.1)
  | _, _, _, .nil c => rfl
  | _, _, _, .cons c nm v e p j rest data hl hown h hs => by simp [serF_names hs]

theorem serF_values {E : Env} {w : World} {ic : Bool} :
    ∀ {c : ClsId} {b : List (PyStr × Val)} {data : List (Val × Val)}, SerF E w ic c b data →
    ∀ kv ∈ data, ∃ nm v e p, kv.1 = .str nm ∧ (nm, v) ∈ b ∧ lookupS nm (E.classes c).props = some e ∧
      OwnSpec e p ∧ SerP E w ic nm p v kv.2
  | _, _, _, .nil c, _, h => (by cases h)
  | _, _, _, .cons c nm v e p j rest data hl hown h hs, kv, hkv => by
    rcases List.mem_cons.1 hkv with rfl | hkv
    · exact ⟨nm, v, e, p, rfl, by simp, hl, hown, h⟩
    · obtain ⟨nm, v, e, p, h1, h2, h3⟩ := serF_values hs kv hkv
      exact ⟨nm, v, e, p, h1, by simp [h2], h3⟩

/-- The serialized form of an instance whose values have serialized forms with
text keys. -/
theorem serO_asText {E : Env} {w : World} {ic : Bool} {r : Nat} {o : Obj} {j : Val} (ho : w.objs[r]? = some o)
    (hnd : (o.backend.map (·.1)).Nodup) (h : SerO E w ic r j)
    (hv : ∀ nm v e q x, (nm, v) ∈ o.backend → lookupS nm (E.classes o.cls).props = some e →
      OwnSpec e q → SerP E w ic nm q v x → AsText x) : AsText j := by
  cases h with
  | mk _ o' data ho' hf =>
  rw [ho] at ho'
  cases ho'
  have hn := serF_names hf
  have hdn : (data.map (·.1)).Nodup := by
    rw [hn, show (fun x : PyStr × Val => Val.str x.1) = Val.str ∘ Prod.fst from rfl, ← List.map_map]
    exact List.Pairwise.map _ (fun a b hab h => hab (Val.str.inj h)) hnd
  have hfn : ((data.filter (fun kv => !kv.2.isNone)).map (·.1)).Nodup :=
    hdn.sublist (List.Sublist.map _ List.filter_sublist)
  have hd : ∀ kv ∈ data, (∃ t, kv.1 = .str t) ∧ AsText kv.2 := fun kv hkv => by
    obtain ⟨nm, v, e, p, h1, h2, h3, h4, h5⟩ := serF_values hf kv hkv
    exact ⟨⟨nm, h1⟩, hv nm v e p _ h2 h3 h4 h5⟩
  refine .dict _ (fun kv hkv => ?_) ?_ fun kv hkv => ?_
  · rcases complete_mem hkv with h | ⟨_, h | ⟨x, h⟩⟩
    · exact (hd kv h).1
    · exact ⟨_, h⟩
    · exact (hd _ h).1
  · unfold complete
    split
    · exact dictSet_str_nodup hfn _ _
    · exact hfn
  · rcases complete_mem hkv with h | ⟨h, _⟩
    · exact (hd kv h).2
    · rw [h]; exact .atom _ (.str _)

theorem canon_asText {E : Env} (hk : TextKeyedClasses E) {S : PropTy → Val → Prop} {ic tr : Bool} {w : World}
    {p : PropSpec} {v : Val} (h : Canon E S ic tr w p v) : TextKeyed p → ∀ nm j, SerP E w ic nm p v j →
    AsText j := by
  have hscalar : ∀ {p : PropSpec} {v j : Val} {nm : PyStr}, Canon E S ic tr w p v → ScalarTy p.ty →
      TextKeyed p → SerP E w ic nm p v j → AsText j := by
    intro p v j nm hc hs ht hj
    obtain ⟨h1, h2⟩ := textKeyed_inv ht
    obtain ⟨h3, _, h4⟩ := canon_scalar_inv hc hs
    rcases h4 nm j hj with ⟨_, h5⟩ | ⟨f, h5, _⟩
    · exact scalar_asText (w := w) (scalar_admits w (h3.accepted 0) rfl) hs
        (fun ha => by rw [ha] at h2; exact h2) h5
    · rw [h1] at h5; cases h5
  induction h with
  | scalar p v hc hs hcs hS => exact fun ht nm j hj => hscalar (.scalar p v hc hs hcs hS) hs ht hj
  | custom p v j' hs hv h1 hw hj0 hr hS =>
    exact fun ht nm j hj => hscalar (.custom p v j' hs hv h1 hw hj0 hr hS) hs ht hj
  | seq p k it lo hi co xs hc hty hset _ ih =>
    intro ht nm j hj
    have hb := serP_inv hj hc.1 (ofKind_ne k xs).2
    have ht := (textKeyed_inv ht).2
    rw [hty] at hb ht
    obtain ⟨xs', js, hx, hl, rfl⟩ := hb
    have : xs' = xs := by cases k <;> (cases hx; rfl)
    subst this
    refine .list _ fun j hj => ?_
    obtain ⟨x, hx, hxj⟩ := forall₂_right (serL_iff hl) hj
    exact ih x hx ht nm j hxj
  | dict p kp vp co kvs hc hty hsk hh hd hj1 hj2 hck _ ihk ihv =>
    intro ht nm j hj
    have hb := serP_inv hj hc.1 (by simp)
    have ht := (textKeyed_inv ht).2
    rw [hty] at hb ht
    obtain ⟨kvs', jvs, hx, hl, rfl⟩ := hb
    cases hx
    have hf := serD_iff hl
    have hall : ∀ e ∈ jvs, (∃ t, e.1 = .str t) ∧ AsText e.2 := fun e he => by
      obtain ⟨x, hx, h1, h2⟩ := forall₂_right hf he
      refine ⟨?_, ihv x hx ht.2 nm _ h2⟩
      obtain ⟨h3, _, h4⟩ := canon_scalar_inv (hck x hx) hsk
      rcases h4 nm e.1 h1 with ⟨_, h5⟩ | ⟨f, h5, _⟩
      · exact writesText_str ht.1.2 (scalar_admits w (h3.accepted 0) rfl) h5
      · rw [ht.1.1] at h5; cases h5
    have hm : ∀ kv ∈ dictOfPairs jvs, kv ∈ jvs := fun kv hkv => by
      obtain ⟨pre, post, h, _⟩ := (textKeys_mem (k := kv.1) (y := kv.2) fun e he => (hall e he).1).1 hkv
      rw [h]
      simp
    exact .dict _ (fun kv hkv => (hall kv (hm kv hkv)).1) (textKeys_nodup fun e he => (hall e he).1)
      fun kv hkv => (hall kv (hm kv hkv)).2
  | inst p c r o hc hty ho hsub hrec hreb hnd hown hcan ih =>
    intro ht nm j hj
    have hb := serP_inv hj hc.1 (by simp)
    rw [hty] at hb
    refine serO_asText ho hnd (hb r rfl) fun nm v e q x h1 h2 h3 h4 => ?_
    by_cases hv : v = .none
    · subst hv
      rw [serP_none h4 (skips_plain (textKeyed_inv (hk _ _ _ _ h2 h3)).1)]
      exact .atom _ .none
    · exact ih nm v e q h1 h2 h3 hv (hk _ _ _ _ h2 h3) nm x h4
  | union p q pre post v hc hvn hty href hread hS hcan ih =>
    intro ht nm j hj
    have ht := (textKeyed_inv ht).2
    rw [hty] at ht
    exact ih (textKeyedAll_mem ht (by simp)) nm j (canon_ser_union hc.1 hvn hty href hcan hj)

/-- C84: the data a canonical tree is serialized to passes unchanged through a
JSON text, if its Dictionaries have keys written as text; so what is read from
the text is deserialized to a copy of the tree. -/
theorem C84_transit {E : Env} (hk : TextKeyedClasses E) {F : PyFloat → PyStr} {S : PropTy → Val → Prop}
    {ic tr : Bool} {w : World} {c : ClsId} {r : Nat}
    (h : Canon E S ic tr w (asProp c) (.obj r)) (hm : Unmarked w) :
    ∃ N j, ∀ n, N ≤ n → run E n (.hpSerialize r ⟨ic, false⟩) w = (.ok j, w) ∧ jsonText F j = some j ∧
      ∀ strict w2, ∃ r' w3, run E n (.hpDeserialize c j ⟨tr, strict, false⟩) w2 = (.ok (.obj r'), w3) ∧
        OnlyNew w2 w3 ∧ CopyOf E w w3 w2.objs.length (asProp c) (.obj r) (.obj r') := by
  obtain ⟨N0, j0, h0⟩ := C24_round_trip h hm
  obtain ⟨o, ho, hrec, hreb, hnd, hown, hcan⟩ := canon_asProp_inv h
  obtain ⟨N1, j, hj, hrun⟩ := writes_object (ic := ic) ho hnd hown
    (acc_no_cycle (canon_acc h [] r (.inst [] _ c r rfl rfl)))
    fun nm v e q h1 h2 h3 h4 => canon_writes (hcan nm v e q h1 h2 h3 h4) nm
  have hsame : j = j0 := by
    have h1 := hrun (max N0 N1) (by omega) w (sameCore_refl w) fun t _ ⟨o', h1, h2⟩ => by
      rw [hm t o' h1] at h2
      cases h2
    have h2 := (h0 (max N0 N1) (by omega)).1
    have h1 : run E (max N0 N1) (.hpSerialize r ⟨ic, false⟩) w = (.ok j, w) := h1
    rw [h1] at h2
    cases h2
    rfl
  subst hsame
  have ht := canon_asText hk h (p := asProp c) ⟨rfl, trivial⟩ [] j (.inst [] _ c r j rfl rfl hj)
  exact ⟨N0, j, fun n hn => ⟨(h0 n hn).1, C84_same ht, (h0 n hn).2⟩⟩

/-! ## Examples -/

/-- The classes of the tree of C24, with a Dictionary keyed by String. -/
theorem c84_classes : TextKeyedClasses c24Env := by
  intro c nm e p hl hown
  have hm := lookupS_mem_props hl
  change (nm, e) ∈ (if c = 1 then _ else _) at hm
  split at hm
  · simp only [List.mem_cons, Prod.mk.injEq, List.not_mem_nil, or_false] at hm
    rcases hm with ⟨_, rfl⟩ | ⟨_, rfl⟩ | ⟨_, rfl⟩ | ⟨_, rfl⟩ | ⟨_, rfl⟩ <;>
      rcases hown with h | h <;> cases h <;>
      simp [TextKeyed, TextKeyedTy, c24Int, c24Str, c24Kids, c24Tags, c24Index, asProp, WritesText,
        PropSpec.ser, PropSpec.ty]
  · simp only [List.mem_cons, Prod.mk.injEq, List.not_mem_nil, or_false] at hm
    obtain ⟨_, rfl⟩ := hm
    rcases hown with h | h <;> cases h
    simp [TextKeyed, TextKeyedTy, c24Int]

/-- The tree of C24 meets the hypotheses of `C84_transit`. -/
theorem C84_example : TextKeyedClasses c24Env ∧
    Canon c24Env (SelfEqual c24Env) true true c24World (asProp 1) (.obj 2) ∧ Unmarked c24World :=
  ⟨c84_classes, C24_example.1, C24_example.2.1⟩

/-- A tuple comes back as a list, number keys as texts, and of the entries
`12` and `'12'` only the last one is left. -/
theorem C84_keys (F : PyFloat → PyStr) :
    jsonText F (.dict [(.int 12, .tup [.bool true]), (.none, .int 5)]) =
      some (.dict [(.str (s% "12"), .list [.bool true]), (.str (s% "null"), .int 5)]) ∧
    jsonText F (.dict [(.int 12, .str (s% "a")), (.str (s% "12"), .str (s% "b"))]) =
      some (.dict [(.str (s% "12"), .str (s% "b"))]) ∧
    jsonText F (.list [.set []]) = none := by
  refine ⟨?_, ?_, ?_⟩ <;> with_unfolding_all rfl

/-- `Dictionary(key_prop=Integer, value_prop=String)`. -/
def c84ByNumber : PropSpec := .mk false none none .undef (.dict
  (.mk false none none .undef (.integer false none none)) c24Str false)
/-- `Dictionary()`, of anything. -/
def c84Any : PropSpec := .mk false none none .undef (.dict
  (.mk false none none .undef .any) (.mk false none none .undef .any) false)

/-- Serialize with the property, pass through a JSON text, and read the result. -/
def c84Back (F : PyFloat → PyStr) (p : PropSpec) (v : Val) : M Val := do
  let j ← run c24nEnv 10 (.serializeP [] p v ⟨true, false⟩)
  match jsonText F j with
  | some j' => run c24nEnv 10 (.deserializeP [] p j' ⟨false, false, false⟩)
  | none => raiseK .type

/-- Integer keys are read back as numbers; without a key property they stay
texts. -/
theorem C84_number_keys (F : PyFloat → PyStr) :
    (c84Back F c84ByNumber (.dict [(.int 12, .str (s% "a"))]) {}).1 = .ok (.dict [(.int 12, .str (s% "a"))]) ∧
    (c84Back F c84Any (.dict [(.int 12, .str (s% "a"))]) {}).1 =
      .ok (.dict [(.str (s% "12"), .str (s% "a"))]) := by
  constructor <;> with_unfolding_all rfl

end Verif
