import Verif.Props.C24

/-!
# C94: copies are trees
-/

namespace Verif
open Spec

/-- Ways through the original are ways through the copy, to instances of the same class. -/
theorem copy_path {E : Env} {S : PropTy → Val → Prop} {ic tr : Bool} {w w' : World} {L : Nat} {p : PropSpec}
    {v : Val} (hS : ∀ ty x, S ty x → RefFree x) (h : Canon E S ic tr w p v) : ∀ v' π r,
    CopyOf E w w' L p v v' → Path w v π r → ∃ r' o o', Path w' v' π r' ∧ w.objs[r]? = some o ∧
      w'.objs[r']? = some o' ∧ o'.cls = o.cls ∧ L ≤ r' := by
  induction h with
  | scalar p v _ _ _ h1 =>
    intro v' π r _ hp
    obtain ⟨s, hs⟩ := refFree_path hp
    exact absurd hs (hS _ _ h1 s)
  | custom p v j _ _ _ _ _ _ h1 =>
    intro v' π r _ hp
    obtain ⟨s, hs⟩ := refFree_path hp
    exact absurd hs (hS _ _ h1 s)
  | seq p k it lo hi co xs hc hty hset _ ih =>
    intro v' π r hcp hp
    have hb := copyOf_inv hcp
    rw [hty] at hb
    obtain ⟨ys, rfl, hl, hit⟩ := hb xs rfl
    obtain ⟨i, x, ρ, rfl, hx, hp⟩ := path_kind_inv hp
    obtain ⟨y, hy⟩ : ∃ y, ys[i]? = some y := by
      have hlt := (List.getElem?_eq_some_iff.1 hx).1
      exact ⟨_, List.getElem?_eq_getElem (by omega)⟩
    obtain ⟨r', o, o', h1, h2⟩ := ih x (List.mem_of_getElem? hx) y ρ r (hit i x y hx hy) hp
    refine ⟨r', o, o', ?_, h2⟩
    cases k with
    | tup => exact .tup ys i y ρ r' hy h1
    | list => exact .list ys i y ρ r' hy h1
    | set => exact .set ys i y ρ r' hy h1
  | dict p kp vp co kvs hc hty hsk hh hd hj1 hj2 hck _ ihk ihv =>
    intro v' π r hcp hp
    have hb := copyOf_inv hcp
    rw [hty] at hb
    obtain ⟨lvs, rfl, hk, hit⟩ := hb kvs rfl
    have hl : kvs.length = lvs.length := by
      have := congrArg List.length hk
      simpa using this
    obtain ⟨i, kv, ρ, hx, ⟨_, hp2⟩ | ⟨rfl, hp2⟩⟩ := path_dict_inv hp
    · obtain ⟨s, hs⟩ := refFree_path hp2
      exact absurd hs (hS _ _ (canon_scalar_inv (hck kv (List.mem_of_getElem? hx)) hsk).2.1 s)
    · obtain ⟨y, hy⟩ : ∃ y, lvs[i]? = some y := by
        have hlt := (List.getElem?_eq_some_iff.1 hx).1
        exact ⟨_, List.getElem?_eq_getElem (by omega)⟩
      obtain ⟨r', o, o', h1, h2⟩ := ihv kv (List.mem_of_getElem? hx) y.2 ρ r (hit i kv y hx hy) hp2
      exact ⟨r', o, o', .entry lvs i y ρ r' hy h1, h2⟩
  | inst p c s o hc hty ho hsub hrec hreb hnd hown hcan ih =>
    intro v' π r hcp hp
    have hb := copyOf_inv hcp
    rw [hty] at hb
    obtain ⟨s', o1, o', rfl, ho1, ho', hL, hcls, _, hval⟩ := hb s rfl
    rw [ho] at ho1
    cases ho1
    rcases path_obj_inv hp with ⟨rfl, rfl⟩ | ⟨o1, nm, v, ρ, ho1, hlk, rfl, hp2⟩
    · exact ⟨s', o, o', .here s', ho, ho', hcls, hL⟩
    · rw [ho] at ho1
      cases ho1
      have hv : v ≠ .none := fun hv => by
        subst hv
        obtain ⟨t, ht⟩ := refFree_path hp2
        cases ht
      have hm := lookupS_mem_props hlk
      obtain ⟨e, q, he, hq, _⟩ := hown nm v hm
      have hva : valueAt o nm = v := by
        unfold valueAt
        rw [hlk]
        rfl
      have hcp' := hval nm e q he hq (by rw [hva]; exact hv)
      rw [hva] at hcp'
      obtain ⟨r', o2, o2', h1, h2⟩ := ih nm v e q hm he hq hv _ ρ r hcp' hp2
      refine ⟨r', o2, o2', ?_, h2⟩
      cases hl : lookupS nm o'.backend with
      | none =>
        have hn : valueAt o' nm = .none := by
          unfold valueAt
          rw [hl]
          rfl
        rw [hn] at h1
        obtain ⟨t, ht⟩ := refFree_path h1
        cases ht
      | some y =>
        have hy : valueAt o' nm = y := by
          unfold valueAt
          rw [hl]
          rfl
        rw [hy] at h1
        exact .prop s' o' nm y ρ r' ho' hl h1
  | union p q pre post v hc hvn hty href hread hS' hcan ih =>
    intro v' π r hcp hp
    have hb := copyOf_inv hcp
    rw [hty] at hb
    obtain ⟨q', hq', hcp'⟩ := hb
    have := picks_unique (hq' []) (canon_picks (post := post) hcan href [])
    cases this
    exact ih v' π r hcp' hp

/-- C94: reading the serialized form of an instance builds a tree of new instances: along every
way through the original there is an instance of the same class, and different ways lead to
different instances, also where the original holds one instance twice. -/
theorem C94_tree {E : Env} {S : PropTy → Val → Prop} {ic tr : Bool} {w : World} {c : ClsId} {r : Nat}
    (h : Canon E S ic tr w (asProp c) (.obj r)) (hS : ∀ ty x, S ty x → RefFree x) (hm : Unmarked w) :
    ∃ N j, ∀ n, N ≤ n → run E n (.hpSerialize r ⟨ic, false⟩) w = (.ok j, w) ∧
      ∀ strict w2, ∃ r' w3, run E n (.hpDeserialize c j ⟨tr, strict, false⟩) w2 = (.ok (.obj r'), w3) ∧
        OnlyNew w2 w3 ∧ Unshared w3 (.obj r') ∧
        (∀ π s, Path w3 (.obj r') π s → w2.objs.length ≤ s ∧ s < w3.objs.length) ∧
        ∀ π s, Path w (.obj r) π s → ∃ s' o o', Path w3 (.obj r') π s' ∧ w.objs[s]? = some o ∧
          w3.objs[s']? = some o' ∧ o'.cls = o.cls := by
  obtain ⟨N, j, hN⟩ := canon_round_trip h hm
  refine ⟨N, j, fun n hn => ⟨(hN n hn).1, fun strict w2 => ?_⟩⟩
  obtain ⟨r', w3, h1, h2, h3, h4⟩ := (hN n hn).2 strict w2
  refine ⟨r', w3, h1, h2, fun π ρ s hp hq => ((h4 hS).once 0 0 _ _ π ρ s rfl rfl hp hq).2,
    fun π s hp => (h4 hS).within 0 _ π s rfl hp, fun π s hp => ?_⟩
  obtain ⟨s', o, o', h5, h6, h7, h8, _⟩ := copy_path hS h _ π s h3 hp
  exact ⟨s', o, o', h5, h6, h7, h8⟩

/-- C94: `copy` does the same. -/
theorem C94_copy {E : Env} {S : PropTy → Val → Prop} {ic tr : Bool} {w : World} {r : Nat} {o : Obj}
    (ho : w.objs[r]? = some o) (h : Canon E S ic tr w (asProp o.cls) (.obj r))
    (hS : ∀ ty x, S ty x → RefFree x) (hm : Unmarked w) :
    ∃ N, ∀ n, N ≤ n → ∀ strict, ∃ r' w',
      run E n (.copy (.obj r) ⟨ic, false⟩ ⟨tr, strict, false⟩) w = (.ok (.obj r'), w') ∧
      OnlyNew w w' ∧ Unshared w' (.obj r') ∧
      (∀ π s, Path w' (.obj r') π s → w.objs.length ≤ s ∧ s < w'.objs.length) ∧
      ∀ π s, Path w (.obj r) π s → ∃ s' o o', Path w' (.obj r') π s' ∧ w.objs[s]? = some o ∧
        w'.objs[s']? = some o' ∧ o'.cls = o.cls := by
  obtain ⟨N, j, hN⟩ := C94_tree h hS hm
  refine ⟨N + 1, fun n hn strict => ?_⟩
  obtain ⟨m, rfl⟩ : ∃ m, n = m + 1 := ⟨n - 1, by omega⟩
  obtain ⟨h1, h2⟩ := hN m (by omega)
  obtain ⟨r', w', h3, h4⟩ := h2 strict w
  refine ⟨r', w', ?_, h4⟩
  show copyBody (run E m) (.obj r) ⟨ic, false⟩ ⟨tr, strict, false⟩ w = _
  unfold copyBody
  simp only []
  rw [bind_ok (getObj_some ho), bind_ok h1]
  exact h3

/-- C94: two places that hold the same instance hold different ones in the copy. -/
theorem C94_separate {E : Env} {S : PropTy → Val → Prop} {ic tr : Bool} {w : World} {r : Nat} {o : Obj}
    (ho : w.objs[r]? = some o) (h : Canon E S ic tr w (asProp o.cls) (.obj r))
    (hS : ∀ ty x, S ty x → RefFree x) (hm : Unmarked w) {π ρ : List Hop} {s : Nat} (hne : π ≠ ρ)
    (hp : Path w (.obj r) π s) (hq : Path w (.obj r) ρ s) :
    ∃ N, ∀ n, N ≤ n → ∀ strict, ∃ r' w' a b,
      run E n (.copy (.obj r) ⟨ic, false⟩ ⟨tr, strict, false⟩) w = (.ok (.obj r'), w') ∧
      Path w' (.obj r') π a ∧ Path w' (.obj r') ρ b ∧ a ≠ b := by
  obtain ⟨N, hN⟩ := C94_copy ho h hS hm
  refine ⟨N, fun n hn strict => ?_⟩
  obtain ⟨r', w', h1, _, h3, _, h5⟩ := hN n hn strict
  obtain ⟨a, _, _, ha, _⟩ := h5 π s hp
  obtain ⟨b, _, _, hb, _⟩ := h5 ρ s hq
  exact ⟨r', w', a, b, h1, ha, hb, fun hab => hne (h3 π ρ a ha (hab ▸ hb))⟩

/-! ## Sharing can make copies exponentially larger -/

theorem length_le_of_nodup : ∀ (n : Nat) (l : List Nat), l.Nodup → (∀ x ∈ l, x < n) → l.length ≤ n
  | 0, l, _, h => by
    cases l with
    | nil => simp
    | cons x l => exact absurd (h x (by simp)) (by omega)
  | n + 1, l, hn, h => by
    have h1 := length_le_of_nodup n (l.erase n) (hn.sublist List.erase_sublist) fun x hx => by
      have h2 := h x (List.mem_of_mem_erase hx)
      have h3 : x ≠ n := fun h4 => by
        subst h4
        exact (hn.not_mem_erase) hx
      omega
    have h2 := List.length_erase (a := n) (l := l)
    split at h2 <;> omega

/-- `class Node` with the properties `a` and `b`, both Instances of Node. -/
def c94Env : Env :=
  { demoEnv with
    classes := fun _ => { (default : ClassDef) with
      name := s% "Node"
      registry := [(s% "Node", 0)]
      props := [(s% "a", .mutable (asProp 0)), (s% "b", .mutable (asProp 0))] } }

/-- Node number `i + 1` holds node `i` twice. -/
def c94Node : Nat → Obj
  | 0 => { cls := 0 }
  | i + 1 => { cls := 0, backend := [(s% "a", .obj i), (s% "b", .obj i)] }

/-- The nodes 0 to n. -/
def c94World (n : Nat) : World := { objs := (List.range (n + 1)).map c94Node }

theorem c94_get {n i : Nat} (h : i ≤ n) : (c94World n).objs[i]? = some (c94Node i) := by
  show ((List.range (n + 1)).map c94Node)[i]? = _
  rw [List.getElem?_map, List.getElem?_range (by omega)]
  rfl

theorem c94_canon (n : Nat) : ∀ i, i ≤ n →
    Canon c94Env (fun _ v => RefFree v) true true (c94World n) (asProp 0) (.obj i)
  | 0, h => by
    refine .inst _ 0 0 _ ⟨rfl, rfl⟩ rfl (c94_get h) (by decide +kernel) (.inl rfl) ?_ List.nodup_nil ?_ ?_
    · exact c94_rebuild _
    · intro nm v hm; cases hm
    · intro nm v e q hm; cases hm
  | i + 1, h => by
    refine .inst _ 0 (i + 1) _ ⟨rfl, rfl⟩ rfl (c94_get h) rfl (.inl rfl) ?_ ?_ ?_ ?_
    · exact c94_rebuild _
    · show [s% "a", s% "b"].Nodup
      decide +kernel
    · intro nm v hm
      have hm : (nm, v) ∈ [(s% "a", Val.obj i), (s% "b", .obj i)] := hm
      simp only [List.mem_cons, Prod.mk.injEq, List.not_mem_nil, or_false] at hm
      rcases hm with ⟨rfl, rfl⟩ | ⟨rfl, rfl⟩
      · exact ⟨.mutable (asProp 0), asProp 0, rfl, .inl rfl, by simp⟩
      · exact ⟨.mutable (asProp 0), asProp 0, rfl, .inl rfl, by simp⟩
    · intro nm v e q hm he hq _
      have hm : (nm, v) ∈ [(s% "a", Val.obj i), (s% "b", .obj i)] := hm
      simp only [List.mem_cons, Prod.mk.injEq, List.not_mem_nil, or_false] at hm
      have hqq : q = asProp 0 := by
        rcases hm with ⟨rfl, rfl⟩ | ⟨rfl, rfl⟩ <;> (cases he; rcases hq with hq | hq <;> cases hq <;> rfl)
      subst hqq
      rcases hm with ⟨_, rfl⟩ | ⟨_, rfl⟩ <;> exact c94_canon n i (by omega)
where
  c94_rebuild (i : Nat) : Rebuildable c94Env (c94Node i) := by
    have hp : ∀ c nm e, (nm, e) ∈ (c94Env.classes c).props → (nm = s% "a" ∨ nm = s% "b") ∧ e = .mutable (asProp 0) := by
      intro c nm e he
      have he : (nm, e) ∈ [(s% "a", Entry.mutable (asProp 0)), (s% "b", .mutable (asProp 0))] := he
      simp only [List.mem_cons, Prod.mk.injEq, List.not_mem_nil, or_false] at he
      rcases he with ⟨rfl, rfl⟩ | ⟨rfl, rfl⟩
      · exact ⟨.inl rfl, rfl⟩
      · exact ⟨.inr rfl, rfl⟩
    refine ⟨?_, fun nm e he => .inl ?_, fun nm e he => ?_, fun nm p he => ?_⟩
    · show [s% "a", s% "b"].Nodup
      decide +kernel
    · obtain ⟨rfl | rfl, rfl⟩ := hp _ nm e he <;> rfl
    · obtain ⟨rfl | rfl, rfl⟩ := hp _ nm e he <;> decide +kernel
    · cases (hp _ nm _ he).2

/-- All ways of `n` steps along `a` and `b`. -/
def c94Ways : Nat → List (List Hop)
  | 0 => [[]]
  | n + 1 => (c94Ways n).map (.prop (s% "a") :: ·) ++ (c94Ways n).map (.prop (s% "b") :: ·)

theorem c94_ways_length : ∀ n, (c94Ways n).length = 2 ^ n
  | 0 => rfl
  | n + 1 => by
    unfold c94Ways
    rw [List.length_append, List.length_map, List.length_map, c94_ways_length n]
    omega

theorem c94_ways_nodup : ∀ n, (c94Ways n).Pairwise (· ≠ ·)
  | 0 => by simp [c94Ways]
  | n + 1 => by
    unfold c94Ways
    rw [List.pairwise_append, List.pairwise_map, List.pairwise_map]
    refine ⟨(c94_ways_nodup n).imp fun h h2 => h (List.cons.inj h2).2,
      (c94_ways_nodup n).imp fun h h2 => h (List.cons.inj h2).2, fun x hx y hy hxy => ?_⟩
    obtain ⟨_, _, rfl⟩ := List.mem_map.1 hx
    obtain ⟨_, _, rfl⟩ := List.mem_map.1 hy
    have := (List.cons.inj hxy).1
    revert this
    decide +kernel

theorem c94_path (n : Nat) : ∀ i, i ≤ n → ∀ π ∈ c94Ways i, Path (c94World n) (.obj i) π 0
  | 0, _, π, h => by
    cases List.mem_singleton.1 h
    exact .here 0
  | i + 1, hi, π, h => by
    unfold c94Ways at h
    rcases List.mem_append.1 h with h | h <;> obtain ⟨ρ, hρ, rfl⟩ := List.mem_map.1 h
    · exact .prop (i + 1) (c94Node (i + 1)) _ (.obj i) ρ 0 (c94_get hi) rfl (c94_path n i (by omega) ρ hρ)
    · exact .prop (i + 1) (c94Node (i + 1)) _ (.obj i) ρ 0 (c94_get hi) rfl (c94_path n i (by omega) ρ hρ)

theorem ends_of_paths {w : World} {v : Val} : ∀ (l : List (List Hop)), (∀ π ∈ l, ∃ r, Path w v π r) →
    ∃ rs, List.Forall₂ (fun π r => Path w v π r) l rs
  | [], _ => ⟨[], .nil⟩
  | π :: l, h => by
    obtain ⟨r, hr⟩ := h π (by simp)
    obtain ⟨rs, hrs⟩ := ends_of_paths l fun ρ hρ => h ρ (by simp [hρ])
    exact ⟨r :: rs, .cons hr hrs⟩

/-- C94: for every `n` there are `n + 1` instances, all reached from the last one, whose copy
consists of at least 2 ^ n instances. -/
theorem C94_exponential (n : Nat) : (c94World n).objs.length = n + 1 ∧
    ∃ N, ∀ m, N ≤ m → ∃ r' w',
      run c94Env m (.copy (.obj n) ⟨true, false⟩ ⟨true, false, false⟩) (c94World n) = (.ok (.obj r'), w') ∧
      n + 1 + 2 ^ n ≤ w'.objs.length := by
  have hlen : (c94World n).objs.length = n + 1 := by
    show ((List.range (n + 1)).map c94Node).length = _
    simp
  refine ⟨hlen, ?_⟩
  have hun : Unmarked (c94World n) := fun r o ho => by
    have hlt := (List.getElem?_eq_some_iff.1 ho).1
    rw [c94_get (by omega)] at ho
    cases ho
    cases r <;> rfl
  have hcls : (c94Node n).cls = 0 := by cases n <;> rfl
  obtain ⟨N, hN⟩ := C94_copy (c94_get (Nat.le_refl n)) (by rw [hcls]; exact c94_canon n n (Nat.le_refl n))
    (fun _ _ h => h) hun
  refine ⟨N, fun m hm => ?_⟩
  obtain ⟨r', w', h1, _, h3, h4, h5⟩ := hN m hm false
  refine ⟨r', w', h1, ?_⟩
  obtain ⟨rs, hrs⟩ := ends_of_paths (w := w') (v := .obj r') (c94Ways n) fun π hπ => by
    obtain ⟨s', _, _, h6, _⟩ := h5 π 0 (c94_path n n (Nat.le_refl n) π hπ)
    exact ⟨s', h6⟩
  have hnd : rs.Nodup := forall₂_pairwise (T := fun π r => Path w' (.obj r') π r) hrs (fun _ _ _ h => h)
    ((c94_ways_nodup n).imp fun {π ρ} hne a b ha hb => fun (hab : a = b) => hne (h3 π ρ a ha (hab ▸ hb)))
  have hb : ∀ x ∈ rs.map (· - (n + 1)), x < w'.objs.length - (n + 1) := fun x hx => by
    obtain ⟨y, hy, rfl⟩ := List.mem_map.1 hx
    obtain ⟨π, _, hp⟩ := forall₂_right hrs hy
    have := h4 π y hp
    rw [hlen] at this
    omega
  have hnd' : (rs.map (· - (n + 1))).Nodup := by
    unfold List.Nodup
    rw [List.pairwise_map]
    refine hnd.imp_of_mem fun {a b} ha hb hab h => hab ?_
    obtain ⟨π, _, hp⟩ := forall₂_right hrs ha
    obtain ⟨ρ, _, hq⟩ := forall₂_right hrs hb
    have h6 := h4 π a hp
    have h7 := h4 ρ b hq
    rw [hlen] at h6 h7
    omega
  have h6 := length_le_of_nodup _ _ hnd' hb
  rw [List.length_map, ← hrs.length_eq, c94_ways_length] at h6
  have h7 : 0 < 2 ^ n := Nat.two_pow_pos n
  omega

/-- The hypotheses are met; here the node 1 is held in two places of node 2, and in the copy by two
different instances. -/
theorem C94_example : Canon c94Env (fun _ v => RefFree v) true true (c94World 2) (asProp 0) (.obj 2) ∧
    Path (c94World 2) (.obj 2) [.prop (s% "a")] 1 ∧ Path (c94World 2) (.obj 2) [.prop (s% "b")] 1 ∧
    let copied := run c94Env 30 (.copy (.obj 2) ⟨true, false⟩ ⟨true, false, false⟩) (c94World 2)
    c24Is (.obj 9) copied.1 ∧ c24Is (.obj 5) (run c94Env 5 (.getattr 9 (s% "a")) copied.2).1 ∧
      c24Is (.obj 8) (run c94Env 5 (.getattr 9 (s% "b")) copied.2).1 := by
  refine ⟨c94_canon 2 2 (by omega), .prop 2 (c94Node 2) _ (.obj 1) [] 1 rfl rfl (.here 1),
    .prop 2 (c94Node 2) _ (.obj 1) [] 1 rfl rfl (.here 1), ?_⟩
  decide +kernel

end Verif
