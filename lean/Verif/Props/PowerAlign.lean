import Verif.Props.PowerData
/-
Rescaling of the inverse covariance (C15), error bars (C43), selection of statistics (C42), alignment of theory and data
vectors (C33).
-/
namespace Verif.Cov
open Verif.Cache (Val objEq closeTo)

/-! ### C15 -/

theorem combinedPower_ok {d : Data} (h : d.CacheOk) :
    d.combinedPower.1 = d.meas.flatMap Meas.power ∧ d.combinedPower.2.meas = d.meas ∧ d.combinedPower.2.cov = d.cov := by
  unfold Data.combinedPower
  rcases h with h | h <;> rw [h] <;> simp

/-- **C15 (partial).**  Rescaling for `Ns > 1` mocks multiplies the inverse covariance that chi2 uses by
`(Ns - nb - 2)/(Ns - 1)`, `nb` being the number of bins of the data vector, leaves the covariance itself alone, and
multiplies every error column by the inverse square root of that factor, except for columns that this changes by less than
`allclose` can see.  Missing: the factor does not survive later limit changes (`C15_later_limits_reset`). -/
theorem C15_rescale_partial (invSqrt : Rat → Rat) (inv : Nat → (Nat → Nat → Rat) → Nat → Nat → Rat) (d : Data) (Ns : Int)
    (hNs : 1 < Ns) (hc : d.CacheOk) :
    ∃ d', d.rescale invSqrt Ns = (d', none) ∧ d'.cov.N = d.cov.N ∧ d'.cov.data = d.cov.data ∧
      (∀ i j, d'.cov.inverse inv i j =
        inv d.cov.N d.cov.values i j *
          (((Ns - (d.meas.flatMap Meas.power).length - 2 : Int) : Rat) / ((Ns - 1 : Int) : Rat))) ∧
      d'.meas.length = d.meas.length ∧
      ∀ (i : Nat) (m : Meas), d.meas[i]? = some m → ∃ m', d'.meas[i]? = some m' ∧ m'.kIn = m.kIn ∧ m'.powerIn = m.powerIn ∧
        m'.kmin = m.kmin ∧ m'.kmax = m.kmax ∧
        ∀ new : List Rat, new = m.errorIn.map (fun e => e * invSqrt
            (((Ns - (d.meas.flatMap Meas.power).length - 2 : Int) : Rat) / ((Ns - 1 : Int) : Rat))) →
          m'.errorIn = new ∨ (objEq (.array new) (.array m.errorIn) = true ∧ m'.errorIn = m.errorIn) := by
  obtain ⟨h1, h2, h3⟩ := combinedPower_ok hc
  unfold Data.rescale
  rw [if_pos (by omega), if_neg (by omega)]
  simp only [h1, h2, h3]
  refine ⟨_, rfl, rfl, rfl, fun i j => rfl, by simp, ?_⟩
  intro i m hm
  refine ⟨_, by rw [List.getElem?_map, hm]; rfl, ?_⟩
  unfold Meas.setError
  simp only
  split
  · rename_i h
    refine ⟨rfl, rfl, rfl, rfl, ?_⟩
    intro new hnew
    subst hnew
    exact Or.inr ⟨h, rfl⟩
  · refine ⟨rfl, rfl, rfl, rfl, ?_⟩
    intro new hnew
    exact Or.inl hnew.symm

/-- Zero (or a negative number of) mocks: nothing is rescaled. -/
theorem C15_no_mocks (invSqrt : Rat → Rat) (d : Data) (Ns : Int) (h : Ns ≤ 0) : d.rescale invSqrt Ns = (d, none) := by
  unfold Data.rescale; rw [if_neg (by omega)]

/-- **C15, the violation.**  Every successful later change of a limit throws the rescaling away, for every data set: chi2
then uses the unrescaled inverse. -/
theorem C15_later_limits_reset (inv : Nat → (Nat → Nat → Rat) → Nat → Nat → Rat) (d d' : Data) (val : List (Option Rat))
    (h : d.setKmin val = (d', none) ∨ d.setKmax val = (d', none)) (i j : Nat) :
    d'.cov.inverse inv i j = inv d'.cov.N d'.cov.values i j := by
  have key : ∀ (c c' : Cov) l1 l2, c.trimK l1 l2 = .ok c' → c'.resc = 1 := by
    intro c c' l1 l2 h
    unfold Cov.trimK at h
    revert h
    split
    · simp
    · simp
    · split
      · simp
      · split
        · simp
        · intro h
          revert h
          simp only
          split
          · simp
          · split
            · simp
            · intro h; cases h; rfl
  have hr : d'.cov.resc = 1 := by
    rcases h with h | h
    · unfold Data.setKmin at h
      split at h
      · cases h
      · simp only at h
        split at h
        · cases h
        · rename_i cov hcov
          split at h <;> cases h <;> exact key _ _ _ _ hcov
    · unfold Data.setKmax at h
      split at h
      · cases h
      · simp only at h
        split at h
        · cases h
        · rename_i cov hcov
          split at h <;> cases h <;> exact key _ _ _ _ hcov
  unfold Cov.inverse
  rw [hr, Rat.mul_one]

/-- A concrete run: 10 mocks, 5 bins: factor 3/9; after `kmax = 2` the factor is 1 again. -/
theorem C15_counterexample :
    (demoData.rescale id 10).1.cov.resc = 1/3 ∧ (((demoData.rescale id 10).1.setKmax [some 2]).2 = none ∧
      ((demoData.rescale id 10).1.setKmax [some 2]).1.cov.resc = 1) := by decide +kernel

/-- **C15/C40 (initialisation).**  A data set that is initialised without error exposes exactly the bins within the fitting
range, its covariance has exactly those bins in the same order, and the inverse used by chi2 is the inverse of that trimmed
covariance times `(Ns - nb - 2)/(Ns - 1)` with `nb` the number of those bins. -/
theorem C15_initialize (invSqrt : Rat → Rat) (inv : Nat → (Nat → Nat → Rat) → Nat → Nat → Rat) (d : Data) (hf : Fresh d)
    (hk : d.kmin = none ∧ d.kmax = none) (hfull : ∀ m ∈ d.meas, m.Full)
    (range : List (Option Rat × Option Rat)) (Ns : Int) (hNs : 1 < Ns) (d' : Data)
    (h : d.initialize invSqrt range Ns = (d', none)) :
    (∀ (i : Nat) (m : Meas), d.meas[i]? = some m → ∃ m', d'.meas[i]? = some m' ∧
      m'.kmin = limAt (range.map (·.1)) i ∧ m'.kmax = limAt (range.map (·.2)) i ∧ m'.kIn = m.kIn ∧ m'.stat = m.stat ∧
      m'.powerIn = m.powerIn) ∧
    d'.meas.length = d.meas.length ∧
    d'.cov.coords1 = d'.meas.flatMap (fun m => m.k.map fun k => (m.stat, k)) ∧
    d'.cov.N = (d'.meas.map Meas.size).sum ∧
    (∀ i j, d'.cov.inverse inv i j = inv d'.cov.N d'.cov.values i j *
      (((Ns - d'.cov.N - 2 : Int) : Rat) / ((Ns - 1 : Int) : Rat))) := by
  unfold Data.initialize Data.setKLimits at h
  split at h
  · cases h
  rename_i d1 hlim
  split at hlim
  · cases hlim
  rename_i d0 hmin
  split at h
  · cases h
  rename_i d2 hres
  have hrun : runLims d [.kmin (range.map (·.1)), .kmax (range.map (·.2))] = some d1 := by
    simp [runLims, LimOp.step, hmin, hlim]
  have hs := C40_history d hf _ d1 hrun
  have hcons := C40_consistent_partial d hf _ d1 hrun (by
    intro op hop i k hin
    rw [← inside_iff] at hin
    simp only [curLo, curHi, List.foldl, inside, Bool.and_eq_true] at hin
    simp only [List.mem_cons, List.not_mem_nil, or_false] at hop
    rcases hop with rfl | rfl
    · simp only [allows_kmin, allows_kmax, inside, Bool.and_eq_true]; exact ⟨hin.1, trivial⟩
    · simp only [allows_kmin, allows_kmax, inside, Bool.and_eq_true]; exact ⟨trivial, hin.2⟩)
  have hc1 : d1.CacheOk := by
    have h0 : d0.cachedPower = none ∧ d0.kmax = none := by
      unfold Data.setKmin at hmin
      split at hmin
      · cases hmin
      · simp only at hmin
        split at hmin
        · cases hmin
        · rw [hk.1] at hmin
          simp only [limEq, Bool.false_eq_true, if_false] at hmin
          cases hmin
          exact ⟨rfl, hk.2⟩
    unfold Data.setKmax at hlim
    split at hlim
    · cases hlim
    · simp only at hlim
      split at hlim
      · cases hlim
      · rw [h0.2] at hlim
        simp only [limEq, Bool.false_eq_true, if_false] at hlim
        cases hlim
        exact Or.inl rfl
  have hpl : ∀ m : Meas, m.powerIn.length = m.kIn.length → m.power.length = m.size := by
    intro m hm
    simp only [Meas.size, Meas.power, Meas.k, Meas.trimIdx]
    rw [maskSel_map _ _ _ hm, maskSel_map _ _ _ rfl]
    have h1 := congrArg List.length (zip_pos m.kIn m.powerIn hm (inside m.kmin m.kmax))
    have h2 := congrArg List.length (zip_pos m.kIn m.kIn rfl (inside m.kmin m.kmax))
    simp only [List.length_map] at h1 h2 ⊢
    omega
  have hnb : (d1.meas.flatMap Meas.power).length = d1.cov.N := by
    rw [hcons.2.2, List.length_flatMap]
    congr 1
    apply List.map_congr_left
    intro m hm
    apply hpl
    rw [hs.meas] at hm
    obtain ⟨i, hi, rfl⟩ := List.mem_mapIdx.1 hm
    exact (hfull _ (List.getElem_mem hi)).1
  obtain ⟨d2', e1, e2, e3, e4, e5, e6⟩ := C15_rescale_partial invSqrt inv d1 Ns hNs hc1
  rw [e1] at hres
  cases hres
  have hd' : d'.meas = d2.meas ∧ d'.cov = d2.cov := by
    split at h
    · cases h
      unfold Data.combinedPower
      split <;> simp
    · cases h
  obtain ⟨hm', hcv⟩ := hd'
  have hvals : d2.cov.values = d1.cov.values := by unfold Cov.values; rw [e2, e3]
  have hco : d2.cov.coords1 = d1.cov.coords1 := by
    have : (d1.rescale invSqrt Ns).1 = d2 := by rw [e1]
    rw [← this]
    unfold Data.rescale
    rw [if_pos (by omega), if_neg (by omega)]
    simp only [(combinedPower_ok hc1).2.2]
  have hsize : ∀ (i : Nat) (m : Meas), d1.meas[i]? = some m → ∃ m', d2.meas[i]? = some m' ∧ m'.k = m.k ∧ m'.stat = m.stat ∧
      m'.kIn = m.kIn ∧ m'.powerIn = m.powerIn ∧ m'.kmin = m.kmin ∧ m'.kmax = m.kmax := by
    intro i m hm
    have : (d1.rescale invSqrt Ns).1 = d2 := by rw [e1]
    rw [← this]
    unfold Data.rescale
    rw [if_pos (by omega), if_neg (by omega)]
    simp only [(combinedPower_ok hc1).2.1, List.getElem?_map, hm, Option.map_some]
    refine ⟨_, rfl, ?_⟩
    unfold Meas.setError
    split <;> exact ⟨rfl, rfl, rfl, rfl, rfl, rfl⟩
  have hmapk : d2.meas.map (fun m => (m.k, m.stat)) = d1.meas.map fun m => (m.k, m.stat) := by
    apply List.ext_getElem?
    intro i
    rw [List.getElem?_map, List.getElem?_map]
    by_cases hi : i < d1.meas.length
    · have hm : d1.meas[i]? = some d1.meas[i] := List.getElem?_eq_getElem hi
      obtain ⟨m', hm', hk', hs', -⟩ := hsize i _ hm
      rw [hm, hm']
      simp [hk', hs']
    · rw [List.getElem?_eq_none (by omega), List.getElem?_eq_none (by omega)]
  refine ⟨?_, ?_, ?_, ?_, ?_⟩
  · intro i m hm
    have hm1 : d1.meas[i]? = some { m with kmin := limAt (range.map (·.1)) i, kmax := limAt (range.map (·.2)) i } := by
      rw [hs.meas, List.getElem?_mapIdx, hm]
      simp [curLo, curHi]
    obtain ⟨m', h1, h2, h3, h4, h5, h6, h7⟩ := hsize i _ hm1
    refine ⟨m', by rw [hm']; exact h1, h6, h7, h4, h3, h5⟩
  · rw [hm', e5, hs.meas]; simp
  · rw [hcv, hco, hcons.1, hm']
    have := congrArg (fun l => l.flatMap fun (e : List Rat × Rat) => e.1.map fun k => (e.2, k)) hmapk
    simpa [List.flatMap_map] using this.symm
  · rw [hcv, e2, hcons.2.2, hm']
    have := congrArg (fun l => (l.map fun (e : List Rat × Rat) => e.1.length).sum) hmapk
    simp only [List.map_map, Function.comp_def] at this
    exact this.symm
  · intro i j
    rw [hcv, e4 i j, hvals, e2, hnb]

example : ∃ d', demoData.initialize id [(some 1, some 2), (none, some 2)] 20 = (d', none) ∧ d'.cov.N = 4 ∧
    d'.cov.resc = 14/19 :=
  ⟨(demoData.initialize id [(some 1, some 2), (none, some 2)] 20).1, by decide +kernel, by decide +kernel, by decide +kernel⟩
example : (∀ m ∈ demoData.meas, m.Full) ∧ demoData.kmin = none ∧ demoData.kmax = none := by
  refine ⟨?_, rfl, rfl⟩
  intro m hm
  simp only [demoData, List.mem_cons, List.not_mem_nil, or_false] at hm
  rcases hm with rfl | rfl <;> exact ⟨rfl, rfl, fun l hl => by cases hl⟩

/-! ### C43: error bars from the covariance -/

theorem diag_ok {c : Cov} (hwf : c.WF) : ∃ var, diag c.N c.data = .ok var ∧ var.length = c.N ∧
    ∀ i, i < c.N → elem c.N c.data i i = .ok (var.getD i 0) := by
  have h : ∀ i ∈ List.range c.N, elem c.N c.data (i : Nat) (i : Nat) = .ok (c.values i i) := by
    intro i hi
    have hi := List.mem_range.1 hi
    exact (elem_values hwf hi hi).1
  refine ⟨(List.range c.N).map fun i => c.values i i, mapM_ok h, by simp, ?_⟩
  intro i hi
  rw [h i (List.mem_range.2 hi)]
  simp [List.getD, hi]

/-- **C43.**  If all measurements have the same number `s` of bins (as at loading time) and the covariance has all of
them, the errors set from the covariance are the square roots of the diagonal elements of the measurement's own bins
(position `s*i + j` for bin `j` of measurement `i`), except for error columns that are already equal up to `allclose`. -/
theorem C43_errors (sqrt : Rat → Rat) (d : Data) (s : Nat) (hwf : d.cov.WF) (hs : ∀ m ∈ d.meas, m.size = s)
    (hN : d.cov.N = s * d.meas.length) :
    ∃ d', setErrorsFromCov sqrt d = .ok d' ∧ d'.cov = d.cov ∧ d'.meas.length = d.meas.length ∧
      ∀ (i : Nat) (m : Meas), d.meas[i]? = some m → ∃ (m' : Meas) (new : List Rat), d'.meas[i]? = some m' ∧
        new.length = s ∧
        (∀ j, j < s → ∃ v, elem d.cov.N d.cov.data (s * i + j : Nat) (s * i + j : Nat) = .ok v ∧ new[j]? = some (sqrt v)) ∧
        m' = { m with errorIn := m'.errorIn } ∧
        (m'.errorIn = new ∨ (objEq (.array new) (.array m.errorIn) = true ∧ m'.errorIn = m.errorIn)) := by
  obtain ⟨var, hv, hl, he⟩ := diag_ok hwf
  unfold setErrorsFromCov
  rw [hv]
  refine ⟨_, rfl, rfl, by simp, ?_⟩
  intro i m hm
  have hi : i < d.meas.length := (List.getElem?_eq_some_iff.1 hm).1
  have hsz : m.size = s := hs m (List.mem_of_getElem? hm)
  have hb : s * i + s ≤ d.cov.N := by
    rw [hN]
    calc s * i + s = s * (i + 1) := by rw [Nat.mul_succ]
      _ ≤ s * d.meas.length := Nat.mul_le_mul_left _ hi
  have hmul : s * (i + 1) - s * i = s := by rw [Nat.mul_succ]; omega
  refine ⟨m.setError (((var.drop (s * i)).take s).map sqrt), ((var.drop (s * i)).take s).map sqrt,
    by simp only [List.getElem?_mapIdx, hm, Option.map_some, hsz, hmul], ?_, ?_, ?_⟩
  · simp; omega
  · intro j hj
    refine ⟨_, he (s * i + j) (by omega), ?_⟩
    have : s * i + j < var.length := by omega
    simp [hj, List.getD, List.getElem?_eq_getElem this]
  · unfold Meas.setError
    split
    · rename_i h; exact ⟨rfl, Or.inr ⟨h, rfl⟩⟩
    · exact ⟨rfl, Or.inl rfl⟩

/-- Two measurements of two bins with variances 1, 4, 9, 16. -/
def demoDiag : Data where
  meas := [⟨0, [1, 2], none, [10, 20], [7, 7], none, none⟩, ⟨2, [1, 2], none, [5, 6], [7, 7], none, none⟩]
  cov := construct 4 (fun i j => if i = j then ((i + 1) * (i + 1) : Nat) else 0) [(0, 1), (0, 2), (2, 1), (2, 2)]
    [(0, 1), (0, 2), (2, 1), (2, 2)]
  kmin := none
  kmax := none
  cachedPower := none
example : demoDiag.cov.WF ∧ (∀ m ∈ demoDiag.meas, m.size = 2) ∧ demoDiag.cov.N = 2 * demoDiag.meas.length ∧
    (setErrorsFromCov id demoDiag).map (fun d => d.meas.map (·.errorIn)) = .ok [[1, 4], [9, 16]] :=
  ⟨construct_wf rfl rfl, by decide +kernel, rfl, by decide +kernel⟩

/-- With measurements of different sizes (limits set before the errors) the slices `size*i : size*(i+1)` are not the
measurement's own bins: here the second measurement (one bin, variance 9 at position 2) is given the variance of position 1. -/
theorem C43_unequal_sizes_counterexample :
    (setErrorsFromCov id { demoDiag with meas := [⟨0, [1, 2], none, [10, 20], [7, 7], none, none⟩,
      ⟨2, [1], none, [5], [7], none, none⟩] }).map (fun d => d.meas.map (·.errorIn)) = .ok [[1, 4], [4]] := by
  decide +kernel

/-! ### C42: selecting statistics -/

theorem zipIdx_filter {α : Type} (l : List α) (q : Nat → Bool) :
    ((l.zipIdx.filter fun e => q e.2).map (·.1)).map some = ((List.range l.length).filter q).map fun i => l[i]? := by
  have h : l.zipIdx.map (fun e => (some e.1, e.2)) = (List.range l.length).map fun i => (l[i]?, i) := by
    apply List.ext_getElem
    · simp
    · intro i h1 h2
      have : i < l.length := by simpa using h1
      simp [List.getElem?_eq_getElem this]
  have h2 := congrArg (fun L => (L.filter fun e => q e.2).map (·.1)) h
  simp only [List.filter_map, List.map_map, Function.comp_def] at h2
  rw [List.map_map]
  exact h2

theorem binsOf_true (ms : List Meas) : binsOf ms (fun _ _ => true) = ms.flatMap fun m => m.kIn.map fun k => (m.stat, k) := by
  unfold binsOf
  conv => rhs; rw [← zipIdx_map_fst ms, List.flatMap_map]
  apply flatMap_congr'
  rintro ⟨m, i⟩ _
  simp only [filter_true']

/-- **C42 (partial).**  Selecting statistics by an increasing list of column numbers keeps everything aligned: the
selected measurements in order, the labels of exactly those measurements, and a covariance whose rows and columns are the
bins of exactly those measurements (so the sliced data set is again a consistent fresh one), with the original elements.
Missing: selections that are not increasing (`C42_order_counterexample`). -/
theorem C42_slice_partial (d : Data) (hf : Fresh d) (use : List Nat) (huse : use.Pairwise (· < ·)) (hne : use ≠ [])
    (hval : ∀ i ∈ use, i < d.meas.length) :
    ∃ (d' : Data) (ells' : List Rat), sliceData d (d.meas.map (·.stat)) use = .ok (d', ells') ∧ Fresh d' ∧
      d'.meas.map some = use.map (fun i => d.meas[i]?) ∧ ells' = d'.meas.map (·.stat) ∧
      ∃ kept : List Nat, kept.Pairwise (· < ·) ∧ d'.cov.N = kept.length ∧
        (∀ (a : Nat) (h : a < kept.length), d'.cov.coords1[a]? = d.cov.coords1[kept[a]]?) ∧
        (∀ (a b : Nat) (ha : a < kept.length) (hb : b < kept.length),
          elem d'.cov.N d'.cov.data a b = elem d.cov.N d.cov.data (kept[a] : Nat) (kept[b] : Nat)) := by
  have hst : d.cov.stats = d.meas.map (·.stat) := stats_binsOf _ _ _ hf.coords1 hf.stats (fun m hm => (hf.ks m hm).2) (by
    intro m i hmi
    have := List.mem_map_of_mem (f := Prod.fst) hmi
    rw [zipIdx_map_fst] at this
    obtain ⟨k, hk⟩ := List.exists_mem_of_ne_nil _ (hf.ks m this).1
    exact ⟨k, hk, rfl⟩)
  have hlt : ∀ a b (ha : a < d.meas.length) (hb : b < d.meas.length), a < b → d.meas[a].stat < d.meas[b].stat := by
    intro a b ha hb hab
    have := List.pairwise_iff_getElem.1 hf.stats a b (by simpa using ha) (by simpa using hb) hab
    simpa using this
  have hinj : ∀ a b (ha : a < d.meas.length) (hb : b < d.meas.length), d.meas[a].stat = d.meas[b].stat → a = b := by
    intro a b ha hb hab
    rcases Nat.lt_trichotomy a b with h | h | h
    · have := hlt a b ha hb h; grind
    · exact h
    · have := hlt b a hb ha h; grind
  -- labels
  have hlab : ∀ (i : Nat) (hi : i < d.meas.length),
      (d.meas[i].stat ∈ use.map fun i => d.cov.stats.getD i 0) ↔ i ∈ use := by
    intro i hi
    have hget : ∀ j (hj : j < d.meas.length), d.cov.stats.getD j 0 = d.meas[j].stat := by
      intro j hj
      rw [hst]
      simp [List.getD, hj]
    constructor
    · intro h
      obtain ⟨j, hj, e⟩ := List.mem_map.1 h
      rw [hget j (hval j hj)] at e
      rw [← hinj j i (hval j hj) hi e]; exact hj
    · intro h
      exact List.mem_map.2 ⟨i, h, hget i hi⟩
  -- measurements
  have hms : ((d.meas.zipIdx.filter fun e => decide (e.2 ∈ use)).map (·.1)).map some = use.map fun i => d.meas[i]? := by
    rw [zipIdx_filter d.meas fun i => decide (i ∈ use)]
    congr 1
    apply eq_of_pairwise_lt (List.Pairwise.filter _ List.pairwise_lt_range) huse
    intro i
    simp only [List.mem_filter, List.mem_range, decide_eq_true_eq]
    exact ⟨fun h => h.2, fun h => ⟨hval i h, h⟩⟩
  have hells : (use.map fun i => (d.meas.map (·.stat)).getD i 0) =
      ((d.meas.zipIdx.filter fun e => decide (e.2 ∈ use)).map (·.1)).map (·.stat) := by
    have := congrArg (fun L => L.map fun o => (o.map (fun (m : Meas) => m.stat)).getD 0) hms
    simp only [List.map_map, Function.comp_def, Option.map_some, Option.getD_some] at this
    rw [List.map_map]
    simp only [Function.comp_def]
    rw [this]
    apply List.map_congr_left
    intro i _
    simp [List.getD]
  -- covariance
  have hkeep : ∀ cs : List Coord, ((List.range cs.length).filter fun i =>
      decide ((cs.getD i (0, 0)).1 ∈ use.map fun i => d.cov.stats.getD i 0)) =
      (List.range cs.length).filter fun i => (cs[i]?).any fun x => decide (x.1 ∈ use.map fun i => d.cov.stats.getD i 0) := by
    intro cs
    apply List.filter_congr
    intro i hi
    have := List.mem_range.1 hi
    simp [List.getD, List.getElem?_eq_getElem this]
  have hflt : d.cov.coords1.filter (fun x => decide (x.1 ∈ use.map fun i => d.cov.stats.getD i 0)) =
      binsOf ((d.meas.zipIdx.filter fun e => decide (e.2 ∈ use)).map (·.1)) fun _ _ => true := by
    rw [hf.coords1, filter_binsOf d.meas (fun _ _ => true)
      (fun s _ => decide (s ∈ use.map fun i => d.cov.stats.getD i 0)) (fun i _ => decide (i ∈ use)) (by
        intro m i hmi k
        obtain ⟨hi, e⟩ := List.mem_zipIdx' hmi
        rw [e]
        exact decide_eq_decide.2 (hlab i hi))]
    rw [binsOf_true, List.flatMap_map]
    unfold binsOf
    have aux : ∀ l : List (Meas × Nat), (l.flatMap fun e => (e.1.kIn.filter fun _ => true && decide (e.2 ∈ use)).map
        fun k => (e.1.stat, k)) = (l.filter fun e => decide (e.2 ∈ use)).flatMap fun e => e.1.kIn.map fun k => (e.1.stat, k) := by
      intro l
      induction l with
      | nil => rfl
      | cons e l ih =>
        rw [List.flatMap_cons, ih, List.filter_cons]
        by_cases h : e.2 ∈ use <;> simp [h, filter_true']
    exact aux _
  have hKne : ((List.range d.cov.coords1.length).filter fun i => (d.cov.coords1[i]?).any fun x =>
      decide (x.1 ∈ use.map fun i => d.cov.stats.getD i 0)) ≠ [] := by
    intro h0
    have hr := filter_range d.cov.coords1 (fun x => decide (x.1 ∈ use.map fun i => d.cov.stats.getD i 0))
    rw [h0, hflt] at hr
    have hnil := (List.map_eq_nil_iff.1 hr.symm)
    obtain ⟨i, hi⟩ := List.exists_mem_of_ne_nil _ hne
    have hil := hval i hi
    have hmem : some d.meas[i] ∈ ((d.meas.zipIdx.filter fun e => decide (e.2 ∈ use)).map (·.1)).map some := by
      rw [hms]
      exact List.mem_map.2 ⟨i, hi, List.getElem?_eq_getElem hil⟩
    obtain ⟨m, hm, e⟩ := List.mem_map.1 hmem
    cases e
    obtain ⟨k, hk⟩ := List.exists_mem_of_ne_nil _ (hf.ks _ (List.getElem_mem hil)).1
    rw [binsOf_true] at hnil
    have : (d.meas[i].stat, k) ∈ ([] : List Coord) := by
      rw [← hnil]
      exact List.mem_flatMap.2 ⟨_, hm, List.mem_map.2 ⟨k, hk, rfl⟩⟩
    cases this
  obtain ⟨I, J, hI, hJ, hIm, hJm, -, hsel⟩ := C14_select_partial d.cov hf.wf _ _ hKne hKne
    (by intro i hi; rw [← hf.wf.coords1]; exact List.mem_range.1 (List.mem_filter.1 hi).1)
    (by intro i hi; rw [← hf.wf.coords1]; exact List.mem_range.1 (List.mem_filter.1 hi).1)
  have hIJ : I = J := eq_of_pairwise_lt hI hJ fun x => (hIm x).trans (hJm x).symm
  have hIK : I = (List.range d.cov.coords1.length).filter fun i => (d.cov.coords1[i]?).any fun x =>
      decide (x.1 ∈ use.map fun i => d.cov.stats.getD i 0) :=
    eq_of_pairwise_lt hI (List.Pairwise.filter _ List.pairwise_lt_range) hIm
  obtain ⟨r, hr, hrw, hrN, hrc, hre⟩ := hsel hIJ
  have hrco : r.coords1 = d.cov.coords1.filter (fun x => decide (x.1 ∈ use.map fun i => d.cov.stats.getD i 0)) := by
    apply (List.map_inj_right (f := some) (fun a b h => by cases h; rfl)).1
    rw [← filter_range, ← hIK]
    apply List.ext_getElem?
    intro a
    rw [List.getElem?_map, List.getElem?_map]
    by_cases ha : a < I.length
    · rw [(hrc a ha).1, List.getElem?_eq_getElem ha]
      have hlt : I[a] < d.cov.coords1.length := by
        have h1 := (hIm _).1 (List.getElem_mem ha)
        exact List.mem_range.1 (List.mem_filter.1 h1).1
      simp [List.getElem?_eq_getElem hlt]
    · rw [List.getElem?_eq_none (by rw [hrw.coords1, hrN]; omega), List.getElem?_eq_none (by omega)]; rfl
  have hrc2 : r.coords2 = r.coords1 := by
    apply List.ext_getElem?
    intro a
    by_cases ha : a < I.length
    · rw [(hrc a ha).1, (hrc a ha).2, hf.coords1, hf.coords2]
    · rw [List.getElem?_eq_none (by rw [hrw.coords2, hrN]; omega), List.getElem?_eq_none (by rw [hrw.coords1, hrN]; omega)]
  have hco12 : d.cov.coords2 = d.cov.coords1 := hf.coords2.trans hf.coords1.symm
  have hsl : sliceData d (d.meas.map (·.stat)) use = .ok
      ({ d with meas := (d.meas.zipIdx.filter fun e => decide (e.2 ∈ use)).map (·.1), cov := r, cachedPower := none },
        use.map fun i => (d.meas.map (·.stat)).getD i 0) := by
    unfold sliceData
    simp only [hkeep, hco12, hr, List.length_map, if_true]
  refine ⟨_, _, hsl, ?_, hms, hells, I, hI, hrN, fun a h => (hrc a h).1, hre⟩
  have hsub : ∀ m ∈ (d.meas.zipIdx.filter fun e => decide (e.2 ∈ use)).map (·.1), m ∈ d.meas := by
    intro m hm
    obtain ⟨e, he, rfl⟩ := List.mem_map.1 hm
    have := List.mem_map_of_mem (f := Prod.fst) (List.mem_filter.1 he).1
    rwa [zipIdx_map_fst] at this
  refine ⟨?_, fun m hm => hf.no_limits m (hsub m hm), ?_, fun m hm => hf.ks m (hsub m hm), hrw, ?_, ?_⟩
  · intro h
    simp only at h
    rw [h] at hms
    exact hne (List.map_eq_nil_iff.1 hms.symm)
  · have h1 : (d.meas.zipIdx.map fun e => e.1.stat).Pairwise (· < ·) := by
      have e : d.meas.zipIdx.map (fun e => e.1.stat) = d.meas.map (·.stat) := by
        conv => rhs; rw [← zipIdx_map_fst d.meas]
        rw [List.map_map]; rfl
      rw [e]; exact hf.stats
    simp only [List.map_map, List.pairwise_map, Function.comp_def] at h1 ⊢
    exact h1.filter _
  · exact hrco.trans hflt
  · exact hrc2.trans (hrco.trans hflt)

example : ∃ d' e, sliceData demoData [0, 2] [1] = .ok (d', e) ∧ d'.cov.coords1 = [(2, 1), (2, 2)] ∧ e = [2] ∧
    d'.meas.map (·.power) = [[5, 6]] :=
  ⟨((sliceData demoData [0, 2] [1]).toOption.getD (demoData, [])).1, ((sliceData demoData [0, 2] [1]).toOption.getD (demoData, [])).2,
    by decide +kernel, by decide +kernel, by decide +kernel, by decide +kernel⟩

/-- Selecting columns in the order `[1, 0]`: the labels follow the request, the measurements and the covariance do not. -/
theorem C42_order_counterexample :
    (sliceData demoData [0, 2] [1, 0]).map (fun r => (r.2, r.1.meas.map (·.stat))) = .ok ([2, 0], [0, 2]) := by
  decide +kernel

end Verif.Cov
