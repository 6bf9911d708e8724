import Verif.Lemmas.PowerData
import Verif.Spec.PowerData
namespace Verif.Cov

theorem maskSel_map {α β : Type} (p : α → Bool) : ∀ (ks : List α) (l : List β), l.length = ks.length →
    maskSel (ks.map p) l = ((ks.zip l).filter fun e => p e.1).map (·.2)
  | [], [], _ => rfl
  | k :: ks, b :: l, h => by
    have ih := maskSel_map p ks l (by simpa using h)
    unfold maskSel at *
    simp only [List.map_cons, List.zip_cons_cons, List.filter_cons]
    cases p k <;> simp [ih]

theorem zip_pos {α β : Type} (ks : List α) (l : List β) (h : l.length = ks.length) (p : α → Bool) :
    (((ks.zip l).filter fun e => p e.1).map (·.2)).map some =
      ((List.range ks.length).filter fun i => (ks[i]?).any p).map fun i => l[i]? := by
  have h1 : (ks.zip l).length = ks.length := by simp [h]
  have := filter_range (ks.zip l) (fun e => p e.1)
  have h2 : ∀ i, (hi : i < ks.length) → (ks.zip l)[i]? = some ((ks.zip l)[i]'(by rw [h1]; exact hi)) := fun i hi =>
    List.getElem?_eq_getElem (by rw [h1]; exact hi)
  have h3 : ((List.range (ks.zip l).length).filter fun i => ((ks.zip l)[i]?).any fun e => p e.1) =
      (List.range ks.length).filter fun i => (ks[i]?).any p := by
    rw [h1]
    apply List.filter_congr
    intro i hi
    have hi' := List.mem_range.1 hi
    rw [h2 i hi', List.getElem?_eq_getElem hi']
    simp
  rw [h3] at this
  have h4 : (((ks.zip l).filter fun e => p e.1).map (·.2)).map some =
      (((ks.zip l).filter fun e => p e.1).map some).map (fun o => o.map (·.2)) := by
    simp [List.map_map, Function.comp_def]
  rw [h4, ← this, List.map_map]
  apply List.map_congr_left
  intro i hi
  have hi' : i < ks.length := List.mem_range.1 (List.mem_filter.1 hi).1
  simp only [Function.comp]
  rw [h2 i hi', List.getElem?_eq_getElem (show i < l.length by omega)]
  simp

theorem allows_kmin (v : List (Option Rat)) (i : Nat) (k : Rat) : (LimOp.kmin v).allows i k = inside (limAt v i) none k := by
  simp only [LimOp.allows, inside, Bool.and_true]
  cases limAt v i <;> rfl

theorem allows_kmax (v : List (Option Rat)) (i : Nat) (k : Rat) : (LimOp.kmax v).allows i k = inside none (limAt v i) k := by
  simp only [LimOp.allows, inside, Bool.true_and]
  cases limAt v i <;> rfl

theorem zip_self' {α : Type} : ∀ l : List α, l.zip l = l.map fun a => (a, a)
  | [] => rfl
  | a :: l => by simp [zip_self' l]

theorem zipIdx_map_fst {α : Type} (l : List α) : l.zipIdx.map (·.1) = l := by simp

theorem filter_true' {α : Type} (l : List α) : l.filter (fun _ => true) = l := by simp

theorem flatMap_congr' {α β : Type} {f g : α → List β} : ∀ {l : List α}, (∀ x ∈ l, f x = g x) → l.flatMap f = l.flatMap g
  | [], _ => rfl
  | a :: l, h => by
    rw [List.flatMap_cons, List.flatMap_cons, h a (by simp), flatMap_congr' fun x hx => h x (List.mem_cons_of_mem _ hx)]

/-- Coordinates: a filter on (statistic, k) of the bins of the data. -/
theorem filter_binsOf (ms : List Meas) (p : Nat → Rat → Bool) (q : Rat → Rat → Bool) (q' : Nat → Rat → Bool)
    (h : ∀ m i, (m, i) ∈ ms.zipIdx → ∀ k, q m.stat k = q' i k) :
    (binsOf ms p).filter (fun x => q x.1 x.2) = binsOf ms fun i k => p i k && q' i k := by
  unfold binsOf
  rw [List.filter_flatMap]
  apply flatMap_congr'
  rintro ⟨m, i⟩ hmi
  simp only [List.filter_map, Function.comp_def]
  congr 1
  rw [List.filter_filter]
  apply List.filter_congr
  intro k _
  rw [h m i hmi k, Bool.and_comm]

theorem binsOf_congr (ms : List Meas) {p q : Nat → Rat → Bool} (h : ∀ i k, p i k = q i k) : binsOf ms p = binsOf ms q := by
  have : p = q := by funext i k; exact h i k
  rw [this]

theorem binsOf_lexsorted (ms : List Meas) (p : Nat → Rat → Bool) (h1 : (ms.map (·.stat)).Pairwise (· < ·))
    (h2 : ∀ m ∈ ms, m.kIn.Pairwise (· ≤ ·)) : lexsorted (binsOf ms p) = true := by
  rw [lexsorted_iff]
  unfold binsOf
  rw [List.pairwise_flatMap]
  constructor
  · rintro ⟨m, i⟩ hmi
    have hm : m ∈ ms := by
      have := List.mem_map_of_mem (f := Prod.fst) hmi
      rwa [zipIdx_map_fst] at this
    rw [List.pairwise_map]
    exact ((h2 m hm).filter _).imp (by intro a b hab; simp [coordLe, hab])
  · have : (ms.zipIdx.map (·.1.stat)).Pairwise (· < ·) := by
      have e : ms.zipIdx.map (·.1.stat) = ms.map (·.stat) := by
        conv => rhs; rw [← zipIdx_map_fst ms]
        rw [List.map_map]; rfl
      rw [e]; exact h1
    rw [List.pairwise_map] at this
    refine this.imp ?_
    intro a b hab x hx y hy
    obtain ⟨k, -, rfl⟩ := List.mem_map.1 hx
    obtain ⟨k', -, rfl⟩ := List.mem_map.1 hy
    simp [coordLe, hab]

theorem stats_binsOf (c : Cov) (ms : List Meas) (p : Nat → Rat → Bool) (hc : c.coords1 = binsOf ms p)
    (h1 : (ms.map (·.stat)).Pairwise (· < ·)) (h2 : ∀ m ∈ ms, m.kIn.Pairwise (· ≤ ·))
    (hne : ∀ m i, (m, i) ∈ ms.zipIdx → ∃ k ∈ m.kIn, p i k = true) : c.stats = ms.map (·.stat) := by
  apply eq_of_pairwise (r := (· < ·)) (fun a b hab hba => by grind)
  · unfold Cov.stats
    apply uniq_pairwise
    apply lexsorted_fst
    rw [hc]
    exact binsOf_lexsorted ms p h1 h2
  · exact h1
  · intro s
    unfold Cov.stats
    rw [mem_uniq, hc]
    unfold binsOf
    constructor
    · intro h
      obtain ⟨x, hx, rfl⟩ := List.mem_map.1 h
      obtain ⟨⟨m, i⟩, hmi, hx⟩ := List.mem_flatMap.1 hx
      obtain ⟨k, -, rfl⟩ := List.mem_map.1 hx
      have := List.mem_map_of_mem (f := Prod.fst) hmi
      rw [zipIdx_map_fst] at this
      exact List.mem_map_of_mem (f := Meas.stat) this
    · intro h
      obtain ⟨m, hm, rfl⟩ := List.mem_map.1 h
      have : m ∈ ms.zipIdx.map (·.1) := by rw [zipIdx_map_fst]; exact hm
      obtain ⟨⟨m', i⟩, hmi, rfl⟩ := List.mem_map.1 this
      obtain ⟨k, hk, hp⟩ := hne m' i hmi
      refine List.mem_map.2 ⟨(m'.stat, k), List.mem_flatMap.2 ⟨(m', i), hmi, ?_⟩, rfl⟩
      exact List.mem_map.2 ⟨k, List.mem_filter.2 ⟨hk, hp⟩, rfl⟩

theorem broadcast_length {β : Type} {n : Nat} {l l' : List β} (h : broadcast n l = .ok l') : l'.length = n := by
  unfold broadcast at h
  split at h
  · cases h; simp
  · split at h
    · rename_i hl; cases h; exact hl
    · cases h

theorem broadcast_idem {β : Type} {n : Nat} {l l' : List β} (h : broadcast n l = .ok l') : broadcast n l' = .ok l' := by
  have hl := broadcast_length h
  unfold broadcast
  split
  · have : n = 1 := by simpa using hl.symm
    subst this; rfl
  · simp [hl]

theorem broadcast_limAt {n : Nat} {l l' : List (Option Rat)} (h : broadcast n l = .ok l') {i : Nat} (hi : i < n) :
    l'.getD i none = limAt l i := by
  unfold broadcast at h
  split at h
  · cases h; simp [limAt, List.getD, hi]
  · rename_i hne
    split at h
    · cases h
      unfold limAt
      split
      · exact absurd rfl (hne _)
      · rfl
    · cases h

theorem LimState.N_ne {d d' : Data} {lo hi p} (hf : Fresh d) (h : LimState d d' lo hi p) : d'.cov.N ≠ 0 := by
  intro h0
  have h1 : d'.cov.coords1 = [] := by
    apply List.eq_nil_of_length_eq_zero
    rw [h.wf.coords1, h0]
  cases hm : d.meas with
  | nil => exact hf.some_meas hm
  | cons m ms =>
    obtain ⟨k, hk, hp⟩ := h.nonempty m 0 (by rw [hm]; simp [List.zipIdx_cons])
    have : (m.stat, k) ∈ d'.cov.coords1 := by
      rw [h.coords1]
      unfold binsOf
      refine List.mem_flatMap.2 ⟨(m, 0), by rw [hm]; simp [List.zipIdx_cons], ?_⟩
      exact List.mem_map.2 ⟨k, List.mem_filter.2 ⟨hk, hp⟩, rfl⟩
    rw [h1] at this
    cases this

theorem getD_map_stat {β : Type} (ms : List Meas) (f : Rat → β) (b : β) {m : Meas} {i : Nat} (h : (m, i) ∈ ms.zipIdx) :
    ((ms.map (·.stat)).map f).getD i b = f m.stat ∧ i < ms.length := by
  obtain ⟨hi, e⟩ := List.mem_zipIdx' h
  rw [e]
  simp [List.getD, hi]

/-- Trimming the covariance with limits `L1`, `L2` per statistic. -/
theorem LimState.trim {d d' : Data} {lo hi p} (hf : Fresh d) (h : LimState d d' lo hi p) {l1 l2 : List (Option Rat)}
    {L1 L2 : List (Option Rat)} (h1 : broadcast d.meas.length l1 = .ok L1) (h2 : broadcast d.meas.length l2 = .ok L2)
    {c' : Cov} (ht : d'.cov.trimK l1 l2 = .ok c') (q : Nat → Rat → Bool)
    (hq : ∀ i, i < d.meas.length → ∀ k, q i k = inside (L1.getD i none) (L2.getD i none) k)
    (ms : List Meas) (lo' hi' : Nat → Option Rat)
    (hms : ms = d.meas.mapIdx fun i m => { m with kmin := lo' i, kmax := hi' i }) (kl kh cp) :
    LimState d ⟨ms, c', kl, kh, cp⟩ lo' hi' (fun i k => p i k && q i k) ∧ c'.resc = 1 := by
  have hst : d'.cov.stats = d.meas.map (·.stat) :=
    stats_binsOf _ _ _ h.coords1 hf.stats (fun m hm => (hf.ks m hm).2) h.nonempty
  have hlen : d'.cov.stats.length = d.meas.length := by rw [hst]; simp
  have hnd : d'.cov.stats.Nodup := uniq_nodup _
  obtain ⟨f1, hf1⟩ := exists_map none d'.cov.stats L1 hnd (by rw [hlen, broadcast_length h1])
  obtain ⟨f2, hf2⟩ := exists_map none d'.cov.stats L2 hnd (by rw [hlen, broadcast_length h2])
  have ht' : d'.cov.trimK (d'.cov.stats.map f1) (d'.cov.stats.map f2) = .ok c' := by
    rw [← broadcast_trim d'.cov f1 f2 (l1 := l1) (l2 := l2) (by rw [hlen, h1, ← hf1]) (by rw [hlen, h2, ← hf2])]
    exact ht
  have hlex : lexsorted d'.cov.coords1 = true := by
    rw [h.coords1]; exact binsOf_lexsorted _ _ hf.stats fun m hm => (hf.ks m hm).2
  have hqs : ∀ m i, (m, i) ∈ d.meas.zipIdx → ∀ k, inside (f1 m.stat) (f2 m.stat) k = q i k := by
    intro m i hmi k
    obtain ⟨e1, hi⟩ := getD_map_stat d.meas f1 none hmi
    obtain ⟨e2, -⟩ := getD_map_stat d.meas f2 none hmi
    rw [hq i hi, hf1, hf2, hst, e1, e2]
  obtain ⟨w, hc, hcc, hne, hr, kept, k1, k2, k3, k4, k5⟩ :=
    trimK_ok d'.cov h.wf (h.coords1.trans h.coords2.symm) hlex (h.N_ne hf) f1 f2 ht'
  have hco : c'.coords1 = binsOf d.meas fun i k => p i k && q i k := by
    rw [hc, h.coords1]
    exact filter_binsOf d.meas p (fun s k => inside (f1 s) (f2 s) k) q hqs
  refine ⟨⟨hms, ?_, w, hco, hcc ▸ hco, ?_⟩, hr⟩
  · intro m i hmi
    obtain ⟨k, hk, hp⟩ := h.nonempty m i hmi
    have hmem : (m.stat, k) ∈ d'.cov.coords1 := by
      rw [h.coords1]
      exact List.mem_flatMap.2 ⟨(m, i), hmi, List.mem_map.2 ⟨k, List.mem_filter.2 ⟨hk, hp⟩, rfl⟩⟩
    obtain ⟨y, hy, hys, hin⟩ := hne _ hmem
    rw [h.coords1] at hy
    obtain ⟨⟨m', i'⟩, hmi', hy⟩ := List.mem_flatMap.1 hy
    obtain ⟨k', hk', rfl⟩ := List.mem_map.1 hy
    obtain ⟨hk', hp'⟩ := List.mem_filter.1 hk'
    have hii : i = i' := by
      obtain ⟨hi, e⟩ := List.mem_zipIdx' hmi
      obtain ⟨hi', e'⟩ := List.mem_zipIdx' hmi'
      have hlt : ∀ a b (ha : a < d.meas.length) (hb : b < d.meas.length), a < b → d.meas[a].stat < d.meas[b].stat := by
        intro a b ha hb hab
        have := List.pairwise_iff_getElem.1 hf.stats a b (by simpa using ha) (by simpa using hb) hab
        simpa using this
      have hs : d.meas[i].stat = d.meas[i'].stat := by rw [← e, ← e']; exact hys.symm
      rcases Nat.lt_trichotomy i i' with hlt' | heq | hlt'
      · have := hlt i i' hi hi' hlt'; grind
      · exact heq
      · have := hlt i' i hi' hi hlt'; grind
    subst hii
    have hmm : m' = m := by
      obtain ⟨hi, e⟩ := List.mem_zipIdx' hmi
      obtain ⟨hi', e'⟩ := List.mem_zipIdx' hmi'
      rw [e, e']
    subst hmm
    refine ⟨k', hk', ?_⟩
    simp only [hp', Bool.true_and]
    rw [← hqs _ _ hmi]; exact hin
  · obtain ⟨K, K1, K2, K3, K4, K5⟩ := h.elems
    have hkl : ∀ b ∈ kept, b < K.length := fun b hb => by rw [← K2]; exact k3 b hb
    have hg : ∀ a (ha : a < kept.length), K.getD kept[a] 0 = K[kept[a]]'(hkl _ (List.getElem_mem ha)) := by
      intro a ha
      simp [List.getD, List.getElem?_eq_getElem (hkl _ (List.getElem_mem ha))]
    refine ⟨kept.map fun b => K.getD b 0, ?_, by simpa using k2, ?_, ?_, ?_⟩
    · rw [List.pairwise_map]
      refine k1.imp_of_mem ?_
      intro a b ha hb hab
      have h1 := hkl a ha
      have h2 := hkl b hb
      simp only [List.getD, List.getElem?_eq_getElem h1, List.getElem?_eq_getElem h2, Option.getD_some]
      exact (List.pairwise_iff_getElem.1 K1) a b h1 h2 hab
    · intro i hi
      obtain ⟨b, hb, rfl⟩ := List.mem_map.1 hi
      have h1 := hkl b hb
      simp only [List.getD, List.getElem?_eq_getElem h1, Option.getD_some]
      exact K3 _ (List.getElem_mem h1)
    · intro a
      rw [k4 a, List.getElem?_map]
      by_cases ha : a < kept.length
      · rw [List.getElem?_eq_getElem ha]
        simp only [Option.bind_some, Option.map_some, hg a ha]
        rw [K4, List.getElem?_eq_getElem (hkl _ (List.getElem_mem ha))]
        rfl
      · rw [List.getElem?_eq_none (by omega)]; rfl
    · intro a b ha hb
      have ha' : a < kept.length := by simpa using ha
      have hb' : b < kept.length := by simpa using hb
      rw [k5 a b ha' hb', K5 _ _ (hkl _ (List.getElem_mem ha')) (hkl _ (List.getElem_mem hb'))]
      simp only [List.getElem_map, hg a ha', hg b hb']

end Verif.Cov
