import Verif.Props.C26
import Verif.Models.FilterProps
import Verif.Spec.Split

/-!
# C34: filter_props splits a dictionary exactly
-/

namespace Verif
open Spec

theorem lookupS_mem {α : Type} {k : PyStr} {e : α} : ∀ {l : List (PyStr × α)},
    (l.map Prod.fst).Nodup → (lookupS k l = some e ↔ (k, e) ∈ l)
  | [], _ => by simp [lookupS]
  | (k', v) :: l, h => by
      simp only [List.map_cons, List.nodup_cons] at h
      unfold lookupS
      split
      · rename_i hk
        subst hk
        constructor
        · intro h'; cases h'; exact List.mem_cons_self ..
        · intro h'
          rcases List.mem_cons.1 h' with h' | h'
          · cases h'; rfl
          · exact absurd (List.mem_map.2 ⟨_, h', rfl⟩) h.1
      · rename_i hk
        rw [lookupS_mem h.2]
        constructor
        · exact List.mem_cons_of_mem _
        · intro h'
          rcases List.mem_cons.1 h' with h' | h'
          · cases h'; exact absurd rfl hk
          · exact h'

theorem dictOfPairs_distinct {kvs : List (Val × Val)} (h : DistinctKeys kvs) :
    dictOfPairs kvs = kvs := by
  induction kvs using List.reverseRecOn with
  | nil => rfl
  | append_singleton kvs q ih =>
    unfold DistinctKeys at h
    rw [List.map_append, List.pairwise_append] at h
    rw [dictOfPairs_snoc, ih h.1]
    have h3 : ∀ a ∈ kvs.map Prod.fst, pyEq a q.1 = false := fun a ha => h.2.2 a ha _ (by simp)
    clear ih h
    induction kvs with
    | nil => rfl
    | cons a kvs ih =>
      obtain ⟨k, v⟩ := a
      unfold dictSet
      rw [if_neg (by rw [h3 k (by simp)]; simp), ih fun a ha => h3 a (by
        rw [List.map_cons]; exact List.mem_cons_of_mem _ ha)]
      rfl

theorem Spec.DistinctKeys.filter {kvs : List (Val × Val)} (h : DistinctKeys kvs)
    (p : Val × Val → Bool) : DistinctKeys (kvs.filter p) := by
  unfold DistinctKeys at *
  exact h.sublist (List.filter_sublist.map _)

theorem settable_iff {e : Entry} : e.settable = true ↔ Assignable e := by
  cases e <;> simp [Entry.settable, Assignable]

theorem isPropKey_iff {E : Env} {c : ClsId} {b : Bool} {k : Val}
    (hc : ((E.classes c).props.map Prod.fst).Nodup) :
    isPropKey E c b k = true ↔ Selected E c b k := by
  unfold isPropKey Selected
  cases k with
  | str s =>
    cases hl : lookupS s (E.classes c).props with
    | none =>
      dsimp only
      rw [hl]
      simp only [Bool.false_eq_true, Val.str.injEq, false_iff]
      rintro ⟨s', e, rfl, h, _⟩
      rw [(lookupS_mem hc).2 h] at hl
      cases hl
    | some e =>
      dsimp only
      rw [hl]
      simp only [Bool.or_eq_true, settable_iff, Val.str.injEq]
      constructor
      · exact fun h => ⟨s, e, rfl, (lookupS_mem hc).1 hl, h⟩
      · rintro ⟨s', e', rfl, h, h'⟩
        rw [(lookupS_mem hc).2 h] at hl
        cases hl
        exact h'
  | _ => simp

theorem split_filter {P : Val → Prop} {p : Val → Bool} (h : ∀ k, p k = true ↔ P k) :
    ∀ kvs : List (Val × Val), Split P kvs (kvs.filter (fun kv => p kv.1))
      (kvs.filter (fun kv => !(p kv.1)))
  | [] => .nil
  | (k, v) :: kvs => by
      by_cases hk : p k = true
      · rw [List.filter_cons_of_pos (by simpa using hk), List.filter_cons_of_neg (by simpa using hk)]
        exact .left ((h k).1 hk) (split_filter h kvs)
      · rw [List.filter_cons_of_neg (by simpa using hk), List.filter_cons_of_pos (by simpa using hk)]
        exact .right (fun hp => hk ((h k).2 hp)) (split_filter h kvs)

theorem dictGet_isSome_str {s : PyStr} : ∀ {d : List (Val × Val)},
    (dictGet? d (.str s)).isSome = true ↔ .str s ∈ d.map Prod.fst
  | [] => by simp [dictGet?]
  | (k, v) :: d => by
      rw [dictGet_cons]
      split
      · rename_i h
        simp [pyEq_str_right.1 h]
      · rename_i h
        rw [dictGet_isSome_str]
        have : k ≠ .str s := fun hk => h (pyEq_str_right.2 hk)
        simp [Ne.symm this]

theorem dictGet_other {k : Val} (hk : ∀ s, k ≠ .str s) : ∀ {d : List (Val × Val)},
    (∀ x ∈ d.map Prod.fst, ∃ s, x = .str s) → dictGet? d k = none
  | [], _ => rfl
  | (k', v) :: d, h => by
      obtain ⟨s, hs⟩ := h k' (by simp)
      subst hs
      rw [dictGet_cons, if_neg]
      · exact dictGet_other hk fun x hx => h x (by rw [List.map_cons]; exact List.mem_cons_of_mem _ hx)
      · cases k <;> unfold pyEq <;> simp [Val.num?]
        rename_i s'
        exact absurd rfl (hk s')

/-- For every class and every dictionary, with the properties of the class
having distinct names: the input is split into the selected entries and the
others, each in the order of the input. -/
theorem C34_splits {E : Env} {c : ClsId} {kvs : List (Val × Val)} {b : Bool}
    (hc : ((E.classes c).props.map Prod.fst).Nodup) (hd : DistinctKeys kvs) :
    Split (Selected E c b) kvs (filterProps E c kvs b).1 (filterProps E c kvs b).2 := by
  have h1 : (filterProps E c kvs b).1 = kvs.filter (fun kv => isPropKey E c b kv.1) :=
    dictOfPairs_distinct (hd.filter _)
  have h2 : (filterProps E c kvs b).2 = kvs.filter (fun kv => !(isPropKey E c b kv.1)) := by
    have : (filterProps E c kvs b).2 = dictOfPairs (kvs.filter
        (fun kv => (dictGet? (filterProps E c kvs b).1 kv.1).isNone)) := rfl
    rw [this, h1, dictOfPairs_distinct (hd.filter _)]
    refine List.filter_congr fun kv hkv => ?_
    obtain ⟨k, v⟩ := kv
    by_cases hk : ∃ s, k = .str s
    · obtain ⟨s, rfl⟩ := hk
      dsimp only
      have : (dictGet? (kvs.filter (fun kv => isPropKey E c b kv.1)) (.str s)).isSome
          = isPropKey E c b (.str s) := by
        rw [Bool.eq_iff_iff, dictGet_isSome_str, List.mem_map]
        constructor
        · rintro ⟨q, h, hq⟩
          rw [← hq]
          exact (List.mem_filter.1 h).2
        · exact fun h => ⟨(.str s, v), List.mem_filter.2 ⟨hkv, h⟩, rfl⟩
      rw [← this]
      cases dictGet? (kvs.filter (fun kv => isPropKey E c b kv.1)) (.str s) <;> rfl
    · have hk : ∀ s, k ≠ .str s := fun s hs => hk ⟨s, hs⟩
      rw [dictGet_other hk]
      · cases k <;> first | rfl | exact absurd rfl (hk _)
      · intro x hx
        obtain ⟨q, hq, rfl⟩ := List.mem_map.1 hx
        have := (List.mem_filter.1 hq).2
        revert this
        cases q.1 <;> simp [isPropKey]
  rw [h1, h2]
  exact split_filter (fun k => isPropKey_iff hc) kvs

/-- The specification determines the two dictionaries. -/
theorem Spec.Split.unique {P : Val → Prop} {l a b a' b' : List (Val × Val)} (h : Split P l a b)
    (h' : Split P l a' b') : a = a' ∧ b = b' := by
  induction h generalizing a' b' with
  | nil => cases h'; exact ⟨rfl, rfl⟩
  | left hp _ ih =>
    cases h' with
    | left _ h' => obtain ⟨rfl, rfl⟩ := ih h'; exact ⟨rfl, rfl⟩
    | right hn _ => exact absurd hp hn
  | right hn _ ih =>
    cases h' with
    | left hp _ => exact absurd hp hn
    | right _ h' => obtain ⟨rfl, rfl⟩ := ih h'; exact ⟨rfl, rfl⟩

/-- Every entry is in exactly one of the two, and nothing else is. -/
theorem C34_partition {E : Env} {c : ClsId} {kvs : List (Val × Val)} {b : Bool}
    (hc : ((E.classes c).props.map Prod.fst).Nodup) (hd : DistinctKeys kvs) (k v : Val) :
    ((k, v) ∈ (filterProps E c kvs b).1 ↔ (k, v) ∈ kvs ∧ Selected E c b k) ∧
    ((k, v) ∈ (filterProps E c kvs b).2 ↔ (k, v) ∈ kvs ∧ ¬ Selected E c b k) := by
  have h := C34_splits (b := b) hc hd
  revert h
  generalize (filterProps E c kvs b).1 = a, (filterProps E c kvs b).2 = o
  intro h
  clear hd
  induction h with
  | nil => simp
  | left hp _ ih =>
    rw [List.mem_cons, List.mem_cons, ih.1, ih.2]
    refine ⟨⟨?_, ?_⟩, ⟨?_, ?_⟩⟩
    · rintro (h | h)
      · cases h; exact ⟨.inl rfl, hp⟩
      · exact ⟨.inr h.1, h.2⟩
    · rintro ⟨h | h, h'⟩
      · exact .inl h
      · exact .inr ⟨h, h'⟩
    · exact fun h => ⟨.inr h.1, h.2⟩
    · rintro ⟨h | h, h'⟩
      · cases h; exact absurd hp h'
      · exact ⟨h, h'⟩
  | right hn _ ih =>
    rw [List.mem_cons, List.mem_cons, ih.1, ih.2]
    refine ⟨⟨?_, ?_⟩, ⟨?_, ?_⟩⟩
    · exact fun h => ⟨.inr h.1, h.2⟩
    · rintro ⟨h | h, h'⟩
      · cases h; exact absurd h' hn
      · exact ⟨h, h'⟩
    · rintro (h | h)
      · cases h; exact ⟨.inl rfl, hn⟩
      · exact ⟨.inr h.1, h.2⟩
    · rintro ⟨h | h, h'⟩
      · exact .inl h
      · exact .inr ⟨h, h'⟩

/-- `deserialize` reads the same entries as `filter_props` selects. -/
theorem C34_deserialize_reads {E : Env} {c : ClsId} {kvs : List (Val × Val)}
    (hd : DistinctKeys kvs) :
    (filterProps E c kvs true).1 =
      (propState (E.classes c).props kvs).map (fun kv => (Val.str kv.1, kv.2)) := by
  have h1 : (filterProps E c kvs true).1 = kvs.filter (fun kv => isPropKey E c true kv.1) :=
    dictOfPairs_distinct (hd.filter _)
  rw [h1]
  clear h1 hd
  induction kvs with
  | nil => rfl
  | cons a kvs ih =>
    obtain ⟨k, v⟩ := a
    cases k with
    | str s =>
      unfold propState
      cases hl : lookupS s (E.classes c).props with
      | none => rw [List.filter_cons_of_neg (by simp [isPropKey, hl]), ih]; rfl
      | some e => rw [List.filter_cons_of_pos (by simp [isPropKey, hl]), ih]; rfl
    | _ => exact ih

/-- One property of each sort. -/
def c34Env : Env := { demoEnv with
  classes := fun _ => {
    name := s% "C"
    props := [(s% "m", .mutable (.mk true none none .undef .any)),
      (s% "g", .gettable (.mk true none none .undef .uuid)),
      (s% "r", .renamed (s% "m"))] } }

def c34In : List (Val × Val) :=
  [(.str (s% "z"), .int 1), (.str (s% "r"), .int 2), (.int 7, .int 3), (.str (s% "g"), .int 4)]

example : ((c34Env.classes 0).props.map Prod.fst).Nodup ∧ DistinctKeys c34In := by
  constructor
  · simp [c34Env]
  · unfold DistinctKeys c34In; decide +kernel

theorem C34_example :
    filterProps c34Env 0 c34In false =
      ([(.str (s% "r"), .int 2)],
        [(.str (s% "z"), .int 1), (.int 7, .int 3), (.str (s% "g"), .int 4)]) ∧
    (filterProps c34Env 0 c34In true).1 = [(.str (s% "r"), .int 2), (.str (s% "g"), .int 4)] :=
  ⟨by with_unfolding_all rfl, by with_unfolding_all rfl⟩

end Verif
