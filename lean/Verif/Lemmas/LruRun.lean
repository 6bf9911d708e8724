import Verif.Lemmas.Lru
set_option linter.unusedSectionVars false
set_option linter.unusedSimpArgs false
namespace Verif.Lru
variable {K V E : Type} [DecidableEq K]

theorem touch_length_le (l : List (K × V)) (k : K) (v : V) (h : (k, v) ∈ l) : (touch l k v).length ≤ l.length := by
  unfold touch
  have : (l.filter (fun e => decide (e.1 ≠ k))).length < l.length := by
    rw [List.length_filter_lt_length_iff_exists]
    exact ⟨(k, v), h, by simp⟩
  rw [List.length_append]
  simp only [List.length_cons, List.length_nil]
  omega

theorem insertNew_length_le (n : Nat) (hn : 0 < n) (l : List (K × V)) (k : K) (v : V) (h : l.length ≤ n) :
    (insertNew n l k v).length ≤ n := by
  unfold insertNew
  split <;> simp <;> omega

theorem mem_touch {l : List (K × V)} {k : K} {v : V} {e} (h : e ∈ touch l k v) : e ∈ l ∨ e = (k, v) := by
  unfold touch at h
  rcases List.mem_append.1 h with h | h
  · exact Or.inl (List.mem_filter.1 h).1
  · right; simpa using h

theorem mem_insertNew {n : Nat} {l : List (K × V)} {k : K} {v : V} {e} (h : e ∈ insertNew n l k v) : e ∈ l ∨ e = (k, v) := by
  unfold insertNew at h
  rcases List.mem_append.1 h with h | h
  · left
    split at h
    · exact List.mem_of_mem_drop h
    · exact h
  · right; simpa using h

theorem walk_seg {h : Nat → Link K V} : ∀ (t : List (Cell K V)) (a b : Nat), Seg h a (t.map (·.1)) b →
    (∀ e ∈ t, (h e.1).key = some e.2.1 ∧ (h e.1).result = some e.2.2) →
    walk h t.length (h a).next = t.map (fun e => (some e.2.1, some e.2.2)) := by
  intro t
  induction t with
  | nil => intro a b _ _; rfl
  | cons e t ih =>
    intro a b hs hc
    obtain ⟨h1, _, h3⟩ := hs
    simp only [List.length_cons, walk, List.map_cons]
    rw [h1, ih e.1 b h3 (fun x hx => hc x (List.mem_cons_of_mem _ hx)), (hc e (by simp)).1, (hc e (by simp)).2]

theorem walk_rep {m : Mem K V} {t} (hr : Rep m t) :
    walk m.heap m.cache.length (m.heap m.root).next = (contents t).map (fun e => (some e.1, some e.2)) := by
  have : m.cache.length = t.length := by simpa using hr.dict.length_eq
  rw [this, walk_seg t m.root m.root hr.seg hr.cells]
  simp [contents]

theorem runEv_rep {n : Nat} (hn : 0 < n) (f : K → Except E V) : ∀ (evs : List (Ev K V)) (m : Mem K V) (t : List (Cell K V)),
    Rep m t → t.length ≤ n → (∀ e ∈ contents t, f e.1 = .ok e.2) → (∀ k v, Ev.stored k v ∈ evs → f k = .ok v) →
    ∃ rs m' t', runEv n m evs = some (rs, m') ∧ Rep m' t' ∧ t'.length ≤ n ∧ (∀ e ∈ contents t', f e.1 = .ok e.2) ∧
      rs.length = evs.length ∧
      (∀ k v, (Ev.look k, some v) ∈ evs.zip rs → f k = .ok v) ∧
      (∀ k w r, (Ev.stored k w, r) ∈ evs.zip rs → r = some w) ∧
      ((∀ e ∈ evs, e ≠ .clear) → m'.hits + m'.misses = m.hits + m.misses + (rs.filter Option.isSome).length) := by
  intro evs
  induction evs with
  | nil => intro m t hr hl hv _; exact ⟨[], m, t, rfl, hr, hl, hv, rfl, by simp, by simp, by simp⟩
  | cons e evs ih =>
    intro m t hr hl hv hf
    have hlc : ∀ t : List (Cell K V), (contents t).length = t.length := by intro t; simp [contents]
    have hrest : ∀ k v, Ev.stored k v ∈ evs → f k = .ok v := fun k v h => hf k v (List.mem_cons_of_mem _ h)
    have hclr : (∀ e' ∈ e :: evs, e' ≠ .clear) → ∀ e' ∈ evs, e' ≠ .clear :=
      fun h e' he' => h e' (List.mem_cons_of_mem _ he')
    cases e with
    | look k =>
      rcases look_rep hr k with ⟨_, h⟩ | ⟨v, m', t', h, hr', hmem, hc, hh, hm⟩
      · obtain ⟨rs, m', t', h1, h2, h3, h4, h5, h6, h7, h8⟩ := ih m t hr hl hv hrest
        refine ⟨none :: rs, m', t', by simp [runEv, stepEv, h, h1], h2, h3, h4, by simp [h5], ?_, ?_, ?_⟩
        · intro k' v' hm'
          rw [List.zip_cons_cons] at hm'
          rcases List.mem_cons.1 hm' with e | e
          · cases e
          · exact h6 k' v' e
        · intro k' w r hm'
          rw [List.zip_cons_cons] at hm'
          rcases List.mem_cons.1 hm' with e | e
          · cases e
          · exact h7 k' w r e
        · intro hcl; rw [h8 (hclr hcl)]; simp
      · obtain ⟨rs, m'', t'', h1, h2, h3, h4, h5, h6, h7, h8⟩ := ih m' t' hr' (by
          rw [← hlc, hc]; have := touch_length_le _ k v hmem; rw [hlc] at this; omega) (by
          rw [hc]; intro e he; rcases mem_touch he with h1 | rfl
          · exact hv e h1
          · exact hv _ hmem) hrest
        refine ⟨some v :: rs, m'', t'', by simp [runEv, stepEv, h, h1], h2, h3, h4, by simp [h5], ?_, ?_, ?_⟩
        · intro k' v' hm'
          rw [List.zip_cons_cons] at hm'
          rcases List.mem_cons.1 hm' with e | e
          · cases e; exact hv _ hmem
          · exact h6 k' v' e
        · intro k' w r hm'
          rw [List.zip_cons_cons] at hm'
          rcases List.mem_cons.1 hm' with e | e
          · cases e
          · exact h7 k' w r e
        · intro hcl; rw [h8 (hclr hcl), hh, hm]; simp; omega
    | stored k v =>
      obtain ⟨m', t', h, hr', hh, hm, hc⟩ := store_rep hn hr k v
      obtain ⟨rs, m'', t'', h1, h2, h3, h4, h5, h6, h7, h8⟩ := ih m' t' hr' (by
          rw [← hlc, hc]
          split
          · exact insertNew_length_le n hn _ k v (by rw [hlc]; exact hl)
          · rw [hlc]; exact hl) (by
          rw [hc]
          split
          · intro e he
            rcases mem_insertNew he with h1 | rfl
            · exact hv e h1
            · exact hf k v (by simp)
          · exact hv) hrest
      refine ⟨some v :: rs, m'', t'', by simp [runEv, stepEv, h, h1], h2, h3, h4, by simp [h5], ?_, ?_, ?_⟩
      · intro k' v' hm'
        rw [List.zip_cons_cons] at hm'
        rcases List.mem_cons.1 hm' with e | e
        · cases e
        · exact h6 k' v' e
      · intro k' w r hm'
        rw [List.zip_cons_cons] at hm'
        rcases List.mem_cons.1 hm' with e | e
        · cases e; rfl
        · exact h7 k' w r e
      · intro hcl; rw [h8 (hclr hcl), hh, hm]; simp; omega
    | clear =>
      obtain ⟨rs, m'', t'', h1, h2, h3, h4, h5, h6, h7, h8⟩ := ih (clear m) [] (clear_rep hr) (by simp) (by simp [contents]) hrest
      refine ⟨none :: rs, m'', t'', by simp [runEv, stepEv, h1], h2, h3, h4, by simp [h5], ?_, ?_, ?_⟩
      · intro k' v' hm'
        rw [List.zip_cons_cons] at hm'
        rcases List.mem_cons.1 hm' with e | e
        · cases e
        · exact h6 k' v' e
      · intro k' w r hm'
        rw [List.zip_cons_cons] at hm'
        rcases List.mem_cons.1 hm' with e | e
        · cases e
        · exact h7 k' w r e
      · intro hcl; exact absurd rfl (hcl _ (by simp))

/-! ### recency lists -/

theorem recentKeys_nodup : ∀ l : List K, (recentKeys l).Nodup := by
  intro l
  induction l with
  | nil => simp [recentKeys]
  | cons k l ih =>
    simp only [recentKeys, List.nodup_cons]
    exact ⟨by simp, ih.filter _⟩

theorem take_filter_hit : ∀ (n : Nat) (l : List K) (k : K), l.Nodup → k ∈ l.take n →
    k :: (l.take n).filter (fun x => decide (x ≠ k)) = (k :: l.filter (fun x => decide (x ≠ k))).take n := by
  intro n
  induction n with
  | zero => intro l k _ h; simp at h
  | succ n ih =>
    intro l k hn h
    cases l with
    | nil => simp at h
    | cons x l =>
      rw [List.nodup_cons] at hn
      by_cases hx : x = k
      · subst hx
        have hf : ∀ (l' : List K), (∀ y ∈ l', y ≠ x) → l'.filter (fun y => decide (y ≠ x)) = l' :=
          fun l' h => filter_ne_self id x l' h
        have h1 : ∀ y ∈ l, y ≠ x := fun y hy e => hn.1 (e ▸ hy)
        simp only [List.take_succ_cons, List.filter_cons, ne_eq, not_true_eq_false, decide_false,
          Bool.false_eq_true, if_false]
        rw [show (fun y => decide ¬y = x) = (fun y => decide (y ≠ x)) from rfl, hf l h1,
          hf _ (fun y hy => h1 y (List.mem_of_mem_take hy))]
      · simp only [List.take_succ_cons, List.filter_cons, ne_eq, hx, not_false_eq_true, decide_true, if_true]
        have hk : k ∈ l.take n := by
          rw [List.take_succ_cons] at h
          rcases List.mem_cons.1 h with h | h
          · exact absurd h.symm hx
          · exact h
        have := ih l k hn.2 hk
        cases n with
        | zero => simp at hk
        | succ n =>
          simp only [List.take_succ_cons] at this ⊢
          have h2 := (List.cons.inj this).2
          rw [show (fun y => decide ¬y = k) = (fun y => decide (y ≠ k)) from rfl, h2]

theorem take_filter_miss : ∀ (n : Nat) (l : List K) (k : K), k ∉ l.take n →
    (l.filter (fun x => decide (x ≠ k))).take (n - 1) = l.take (n - 1) := by
  intro n
  induction n with
  | zero => intro l k _; simp
  | succ n ih =>
    intro l k h
    cases l with
    | nil => simp
    | cons x l =>
      simp only [List.take_succ_cons, List.mem_cons, not_or] at h
      have hx : x ≠ k := fun e => h.1 e.symm
      simp only [List.filter_cons, ne_eq, hx, not_false_eq_true, decide_true, if_true, Nat.add_sub_cancel]
      cases n with
      | zero => simp
      | succ n =>
        simp only [List.take_succ_cons]
        have := ih l k h.2
        simp only [Nat.add_sub_cancel] at this
        rw [show (fun y => decide ¬y = k) = (fun y => decide (y ≠ k)) from rfl, this]


theorem calls_rep {n : Nat} (hn : 0 < n) (f : K → Except E V) : ∀ (ks : List K) (m : Mem K V) (t : List (Cell K V)),
    Rep m t → t.length ≤ n → (∀ e ∈ contents t, f e.1 = .ok e.2) → ∀ (past : List K),
    ((contents t).map (·.1)).reverse = (recentKeys past).take n →
    ∃ m' t', calls n f m ks = some (ks.map (fun k => (f k).map some), m') ∧ Rep m' t' ∧ t'.length ≤ n ∧
      (∀ e ∈ contents t', f e.1 = .ok e.2) ∧
      ((contents t').map (·.1)).reverse = (recentKeys ((ks.filter (isOk f)).reverse ++ past)).take n ∧
      m'.hits + m'.misses = m.hits + m.misses + (ks.filter (isOk f)).length := by
  intro ks
  have hlc : ∀ t : List (Cell K V), (contents t).length = t.length := by intro t; simp [contents]
  induction ks with
  | nil => intro m t hr hl hv past hp; exact ⟨m, t, rfl, hr, hl, hv, by simpa using hp, by simp⟩
  | cons k ks ih =>
    intro m t hr hl hv past hp
    rcases look_rep hr k with ⟨hnone, h⟩ | ⟨v, m', t', h, hr', hmem, hc, hh, hm⟩
    · cases hfk : f k with
      | error e =>
        obtain ⟨m', t', h', hrest⟩ := ih m t hr hl hv past hp
        refine ⟨m', t', ?_, ?_⟩
        · simp [calls, call, h, hfk, h', Except.map]
        · have : isOk f k = false := by simp [isOk, hfk]
          simpa [List.filter_cons, this] using hrest
      | ok v =>
        obtain ⟨m', t', hs, hr', hh, hm, hc⟩ := store_rep hn hr k v
        have hok : isOk f k = true := by simp [isOk, hfk]
        have hknew := rep_lookup_none hr hnone
        have hcn : (contents t).lookup k = none := by
          rw [lookup_none]
          intro b hb
          obtain ⟨e, he, heq⟩ := List.mem_map.1 hb
          exact hknew e he (by rw [heq])
        rw [if_pos hcn] at hc
        have hknot : k ∉ (recentKeys past).take n := by
          rw [← hp, List.mem_reverse]
          intro hmem
          obtain ⟨e, he, rfl⟩ := List.mem_map.1 hmem
          obtain ⟨c, hcc, rfl⟩ := List.mem_map.1 he
          exact hknew c hcc rfl
        have hp' : ((contents t').map (·.1)).reverse = (recentKeys (k :: past)).take n := by
          rw [hc]
          simp only [insertNew, List.map_append, List.map_cons, List.map_nil, List.reverse_append, List.reverse_cons,
            List.reverse_nil, List.nil_append, List.cons_append, recentKeys]
          obtain ⟨n', rfl⟩ : ∃ n', n = n' + 1 := ⟨n - 1, by omega⟩
          rw [List.take_succ_cons]
          congr 1
          have h1 := take_filter_miss (n' + 1) (recentKeys past) k hknot
          simp only [Nat.add_sub_cancel] at h1
          rw [h1]
          have h2 : (recentKeys past).take n' = ((recentKeys past).take (n' + 1)).take n' := by
            rw [List.take_take]; congr 1; omega
          rw [h2, ← hp]
          split
          · rename_i hge
            have : (contents t).length = n' + 1 := by rw [hlc] at *; omega
            rw [List.map_drop, List.reverse_drop]
            congr 1
            simp; omega
          · rename_i hlt
            rw [List.take_of_length_le]
            simp; omega
        obtain ⟨m'', t'', h', hr'', hl'', hv'', hk'', hcnt⟩ := ih m' t' hr' (by
            rw [← hlc, hc]; exact insertNew_length_le n hn _ k v (by rw [hlc]; exact hl)) (by
            rw [hc]; intro e he
            rcases mem_insertNew he with h1 | rfl
            · exact hv e h1
            · exact hfk) (k :: past) hp'
        refine ⟨m'', t'', ?_, hr'', hl'', hv'', ?_, ?_⟩
        · simp [calls, call, h, hfk, hs, h', Except.map]
        · rw [hk'']; simp [List.filter_cons, hok]
        · rw [hcnt, hh, hm]; simp [List.filter_cons, hok]; omega
    · have hfk : f k = .ok v := hv _ hmem
      have hok : isOk f k = true := by simp [isOk, hfk]
      have hkin : k ∈ (recentKeys past).take n := by
        rw [← hp, List.mem_reverse]; exact List.mem_map.2 ⟨(k, v), hmem, rfl⟩
      have hp' : ((contents t').map (·.1)).reverse = (recentKeys (k :: past)).take n := by
        rw [hc]
        simp only [recentKeys]
        rw [← take_filter_hit n (recentKeys past) k (recentKeys_nodup past) hkin, ← hp]
        simp only [touch, List.map_append, List.map_cons, List.map_nil, List.reverse_append, List.reverse_cons,
            List.reverse_nil, List.nil_append, List.cons_append, List.filter_reverse]
        congr 1
        rw [List.filter_map]
        rfl
      obtain ⟨m'', t'', h', hr'', hl'', hv'', hk'', hcnt⟩ := ih m' t' hr' (by
          rw [← hlc, hc]; have := touch_length_le _ k v hmem; rw [hlc] at this; omega) (by
          rw [hc]; intro e he; rcases mem_touch he with h1 | rfl
          · exact hv e h1
          · exact hv _ hmem) (k :: past) hp'
      refine ⟨m'', t'', ?_, hr'', hl'', hv'', ?_, ?_⟩
      · simp [calls, call, h, hfk, h', Except.map]
      · rw [hk'']; simp [List.filter_cons, hok]
      · rw [hcnt, hh, hm]; simp [List.filter_cons, hok]; omega

theorem unlimited_aux (f : K → Except E V) : ∀ (ks : List K) (m₀ : Simple K V) (acc : List (Except E V)),
    (∀ k v, m₀.cache.lookup k = some v → f k = .ok v) →
    let res := ks.foldl (fun (acc : List (Except E V) × Simple K V) k =>
      ((acc.1 ++ [(callUnlimited f acc.2 k).1]), (callUnlimited f acc.2 k).2)) (acc, m₀)
    res.1 = acc ++ ks.map f ∧
    res.2.hits + res.2.misses = m₀.hits + m₀.misses + (ks.filter (isOk f)).length ∧
    (∀ k v, m₀.cache.lookup k = some v → res.2.cache.lookup k = some v) := by
  intro ks
  induction ks with
  | nil => intro m₀ acc _; simp
  | cons k ks ih =>
    intro m₀ acc h₀
    simp only [List.foldl_cons]
    have hstep : (callUnlimited f m₀ k).1 = f k ∧
        (∀ k' v, (callUnlimited f m₀ k).2.cache.lookup k' = some v → f k' = .ok v) ∧
        (callUnlimited f m₀ k).2.hits + (callUnlimited f m₀ k).2.misses =
          m₀.hits + m₀.misses + (if isOk f k then 1 else 0) ∧
        (∀ k' v, m₀.cache.lookup k' = some v → (callUnlimited f m₀ k).2.cache.lookup k' = some v) := by
      unfold callUnlimited
      cases hl : m₀.cache.lookup k with
      | some v =>
        have hfk := h₀ k v hl
        refine ⟨hfk.symm, h₀, ?_, fun _ _ h => h⟩
        simp [isOk, hfk]; omega
      | none =>
        cases hfk : f k with
        | error e => exact ⟨rfl, h₀, by simp [isOk, hfk], fun _ _ h => h⟩
        | ok v =>
          refine ⟨rfl, ?_, by simp [isOk, hfk]; omega, ?_⟩
          · intro k' v' h
            simp only [List.lookup_cons] at h
            split at h
            · rename_i hk; have : k' = k := by simpa using hk
              subst this; cases h; exact hfk
            · exact h₀ k' v' h
          · intro k' v' h
            simp only [List.lookup_cons]
            split
            · rename_i hk; have : k' = k := by simpa using hk
              subst this; rw [hl] at h; cases h
            · exact h
    obtain ⟨s1, s2, s3, s4⟩ := hstep
    obtain ⟨h1, h2, h3⟩ := ih (callUnlimited f m₀ k).2 (acc ++ [(callUnlimited f m₀ k).1]) s2
    refine ⟨?_, ?_, fun k' v' h => h3 k' v' (s4 k' v' h)⟩
    · rw [h1, s1]; simp
    · rw [h2, s3]
      simp only [List.filter_cons]
      split <;> simp_all <;> omega

theorem unlimited_run (f : K → Except E V) (ks : List K) (m₀ : Simple K V)
    (h₀ : ∀ k v, m₀.cache.lookup k = some v → f k = .ok v) :
    let res := ks.foldl (fun (acc : List (Except E V) × Simple K V) k =>
      ((acc.1 ++ [(callUnlimited f acc.2 k).1]), (callUnlimited f acc.2 k).2)) ([], m₀)
    res.1 = ks.map f ∧
    res.2.hits + res.2.misses = m₀.hits + m₀.misses + (ks.filter (isOk f)).length ∧
    (∀ k v, m₀.cache.lookup k = some v → res.2.cache.lookup k = some v) := by
  have := unlimited_aux f ks m₀ [] h₀
  simpa using this

end Verif.Lru
