import Verif.Props.TraceUnits

/-!
# C148: other units, and where it fails
-/

namespace Verif.Trace

open Plot1D Classical

/-! ### The units -/

section Units

variable {a : ℝ} (ha : 0 < a) (b : ℝ)

include ha

theorem least_affine {t : List ℝ} (ht : t ≠ []) : least (t.map fun x => a * x + b) = a * least t + b := by
  have hne : t.map (fun x => a * x + b) ≠ [] := by simpa using ht
  refine le_antisymm (least_le (List.mem_map.2 ⟨_, least_mem ht, rfl⟩)) ?_
  obtain ⟨x, hx, he⟩ := List.mem_map.1 (least_mem hne)
  rw [← he]
  have := mul_le_mul_of_nonneg_left (least_le hx) ha.le
  linarith

theorem most_affine {t : List ℝ} (ht : t ≠ []) : most (t.map fun x => a * x + b) = a * most t + b := by
  have hne : t.map (fun x => a * x + b) ≠ [] := by simpa using ht
  refine le_antisymm ?_ (le_most (List.mem_map.2 ⟨_, most_mem ht, rfl⟩))
  obtain ⟨x, hx, he⟩ := List.mem_map.1 (most_mem hne)
  rw [← he]
  have := mul_le_mul_of_nonneg_left (le_most hx) ha.le
  linarith

theorem sum_affine (t : List ℝ) : (t.map fun x => a * x + b).sum = a * t.sum + t.length * b := by
  induction t with
  | nil => simp
  | cons x t ih =>
    simp only [List.map_cons, List.sum_cons, ih, List.length_cons]
    push_cast
    ring

theorem std_affine {t : List ℝ} (ht : t ≠ []) : std (t.map fun x => a * x + b) = a * std t := by
  have hlen : (t.length : ℝ) ≠ 0 := by exact_mod_cast (List.length_pos_iff.2 ht).ne'
  have hm : mean (t.map fun x => a * x + b) = a * mean t + b := by
    rw [mean, mean, sum_affine ha, List.length_map]
    field_simp
  have hs : ((t.map fun x => a * x + b).map fun x => (x - (a * mean t + b)) ^ 2).sum = a ^ 2 * (t.map fun x => (x - mean t) ^ 2).sum := by
    rw [List.map_map, ← List.sum_map_mul_left]
    congr 1
    refine List.map_congr_left fun x _ => ?_
    simp only [Function.comp]
    ring
  rw [std, std, hm, hs, List.length_map, mul_div_assoc, Real.sqrt_mul (by positivity), Real.sqrt_sq ha.le]

theorem nBins_affine (t : List ℝ) : nBins (t.map fun x => a * x + b) = nBins t := by
  by_cases ht : t = []
  · simp [nBins, ht]
  · have hz : std (t.map fun x => a * x + b) = 0 ↔ std t = 0 := by rw [std_affine ha b ht]; simp [ha.ne']
    have hr : (most (t.map fun x => a * x + b) - least (t.map fun x => a * x + b)) / width (t.map fun x => a * x + b) = (most t - least t) / width t := by
      rw [most_affine ha b ht, least_affine ha b ht, width, width, std_affine ha b ht, List.length_map]
      rw [show a * most t + b - (a * least t + b) = a * (most t - least t) by ring, show 3.5 * (a * std t) / (t.length : ℝ) ^ (1 / 3 : ℝ) = a * (3.5 * std t / (t.length : ℝ) ^ (1 / 3 : ℝ)) by ring]
      exact mul_div_mul_left _ _ ha.ne'
    unfold nBins
    simp only [hz, hr, List.map_eq_nil_iff, ht, if_false]

theorem edge_affine {t : List ℝ} (ht : t ≠ []) (hv : least t ≠ most t) (n j : ℕ) : edge (t.map fun x => a * x + b) n j = a * edge t n j + b := by
  have hv' : least (t.map fun x => a * x + b) ≠ most (t.map fun x => a * x + b) := by
    rw [most_affine ha b ht, least_affine ha b ht]
    intro h
    exact hv (mul_left_cancel₀ ha.ne' (by linarith))
  rw [edge, edge, first_eq hv, last_eq hv, first_eq hv', last_eq hv', most_affine ha b ht, least_affine ha b ht]
  ring

theorem holds_affine {t : List ℝ} (ht : t ≠ []) (hv : least t ≠ most t) (n j : ℕ) (x : ℝ) : holds (t.map fun x => a * x + b) n j (a * x + b) ↔ holds t n j x := by
  simp only [holds, edge_affine ha b ht hv]
  have h1 : ∀ c d : ℝ, a * c + b ≤ a * d + b ↔ c ≤ d := fun c d => by rw [add_le_add_iff_right, mul_le_mul_iff_of_pos_left ha]
  have h2 : ∀ c d : ℝ, a * c + b < a * d + b ↔ c < d := fun c d => by rw [add_lt_add_iff_right, mul_lt_mul_iff_of_pos_left ha]
  simp only [h1, h2]

theorem frac_affine {t : List ℝ} (ht : t ≠ []) (hv : least t ≠ most t) (n j : ℕ) : frac (t.map fun x => a * x + b) (holds (t.map fun x => a * x + b) n j) = frac t (holds t n j) := by
  unfold frac
  have h : ∀ s : List ℝ, ((s.map fun x => a * x + b).filter fun x => decide (holds (t.map fun x => a * x + b) n j x)).length = (s.filter fun x => decide (holds t n j x)).length := by
    intro s
    rw [← List.countP_eq_length_filter, ← List.countP_eq_length_filter, List.countP_map]
    refine List.countP_congr fun x _ => ?_
    simp only [Function.comp, decide_eq_true_eq]
    exact holds_affine ha b ht hv n j x
  rw [h, List.length_map]

theorem median_affine {t : List ℝ} (ht : t ≠ []) : median (t.map fun x => a * x + b) = a * median t + b := by
  have h0 := List.length_pos_iff.2 ht
  have hs : sorted (t.map fun x => a * x + b) = (sorted t).map fun x => a * x + b := by
    refine (((sorted_perm _).trans ((sorted_perm t).symm.map _))).eq_of_pairwise (fun _ _ _ _ => le_antisymm) (sorted_pairwise _) ?_
    rw [List.pairwise_map]
    exact (sorted_pairwise t).imp fun {x y} h => by
      have := mul_le_mul_of_nonneg_left h ha.le
      linarith
  have hg : ∀ i < t.length, ((sorted t).map fun x => a * x + b).getD i 0 = a * (sorted t).getD i 0 + b := by
    intro i hi
    rw [← sorted_length] at hi
    rw [List.getD_eq_getElem _ _ (by simpa using hi), List.getD_eq_getElem _ _ hi, List.getElem_map]
  unfold median
  rw [hs, List.length_map, hg _ (by omega), hg _ (by omega)]
  split_ifs
  · rfl
  · ring

/-- In other units the centres, the median and the standard deviation are converted, the cumulative distribution is the same, and the density is divided by the ratio of the units. -/
theorem C148_units {t t' : Trace} (harr : t.isArray = t'.isArray) (hdata : t'.data = t.data.map (Option.map fun x => a * x + b)) :
    (∀ f xs cs, t.cdf none f = .ok (xs, cs) → t'.cdf none f = .ok (xs.map (fun x => a * x + b), cs)) ∧
    (∀ f xs ds, t.pdf none f = .ok (xs, ds) → t'.pdf none f = .ok (xs.map (fun x => a * x + b), ds.map (· / a))) ∧
    (∀ m, t.loc = .ok (some m) → t'.loc = .ok (some (a * m + b))) ∧ (∀ s, t.scale = .ok (some s) → t'.scale = .ok (some (a * s))) := by
  have hfin : t'.finite = t.finite.map fun x => a * x + b := by
    rw [Trace.finite, Trace.finite, hdata, List.filterMap_map, List.map_filterMap]
    congr 1
  have hcent : ∀ n, t.finite ≠ [] → least t.finite ≠ most t.finite → centers t'.finite n = (centers t.finite n).map fun x => a * x + b := by
    intro n ht hv
    simp only [centers, List.map_map, hfin, edge_affine ha b ht hv]
    refine List.map_congr_left fun j _ => ?_
    simp only [Function.comp]
    ring
  have hdens : ∀ n j, j < n → t.finite ≠ [] → least t.finite ≠ most t.finite → (density t'.finite n).getD j 0 = (density t.finite n).getD j 0 / a := by
    intro n j hj ht hv
    have ht' : t'.finite ≠ [] := by rw [hfin]; simpa using ht
    have h1 := mass ht hj
    have h2 := mass ht' hj
    rw [hfin] at h2 ⊢
    rw [frac_affine ha b ht hv, ← h1, edge_affine ha b ht hv, edge_affine ha b ht hv] at h2
    have h3 := edge_lt ht (show 0 < n by omega) (Nat.lt_succ_self j)
    simp only [Nat.succ_eq_add_one] at h3
    have h4 : edge t.finite n (j + 1) - edge t.finite n j ≠ 0 := by linarith
    rw [eq_div_iff ha.ne']
    refine mul_left_cancel₀ h4 ?_
    rw [← h2]
    ring
  refine ⟨fun f xs cs h => ?_, fun f xs ds h => ?_, fun m h => ?_, fun s h => ?_⟩
  · obtain ⟨hA, n, hn, hr⟩ := cdf_ok h
    simp only [table, Prod.mk.injEq] at hr
    obtain ⟨rfl, rfl⟩ := hr
    obtain ⟨ht, hv, h2⟩ := nBins_ok hn
    have ht' : t'.finite ≠ [] := by rw [hfin]; simpa using ht
    rw [cdf_of (harr ▸ hA) (by rw [hfin, nBins_affine ha]; exact hn)]
    simp only [table, hcent n ht hv]
    congr 2
    refine List.ext_getElem (by simp [cumulative]) fun j h3 h4 => ?_
    simp only [cumulative, List.getElem_map, List.getElem_range]
    congr 1
    refine List.map_congr_left fun i hi => ?_
    have hi' : i < n := by
      simp [cumulative] at h3
      have := List.mem_range.1 hi
      omega
    rw [mass ht hi', mass ht' hi', hfin, frac_affine ha b ht hv]
  · obtain ⟨hA, n, hn, hr⟩ := pdf_ok h
    simp only [table, Prod.mk.injEq] at hr
    obtain ⟨rfl, rfl⟩ := hr
    obtain ⟨ht, hv, h2⟩ := nBins_ok hn
    rw [pdf_of (harr ▸ hA) (by rw [hfin, nBins_affine ha]; exact hn)]
    simp only [table, hcent n ht hv]
    congr 2
    refine List.ext_getElem (by simp [density]) fun j h3 h4 => ?_
    have hj : j < n := by simpa [density] using h3
    have := hdens n j hj ht hv
    rw [List.getD_eq_getElem _ _ (by rw [density_length]; exact hj), List.getD_eq_getElem _ _ (by rw [density_length]; exact hj)] at this
    rw [List.getElem_map]
    exact this
  · simp only [Trace.loc, keep_eq, ← harr] at h ⊢
    by_cases hA : t.isArray = true
    · simp only [hA, if_true, Except.ok.injEq] at h ⊢
      by_cases ht : t.finite = []
      · simp [ht] at h
      · rw [if_neg ht] at h
        rw [hfin, if_neg (by simpa using ht), median_affine ha b ht]
        cases h
        rfl
    · simp only [hA] at h; cases h
  · simp only [Trace.scale, keep_eq, ← harr] at h ⊢
    by_cases hA : t.isArray = true
    · simp only [hA, if_true, Except.ok.injEq] at h ⊢
      by_cases ht : t.finite = []
      · simp [ht] at h
      · rw [if_neg ht] at h
        rw [hfin, if_neg (by simpa using ht), std_affine ha b ht]
        cases h
        rfl
    · simp only [hA] at h; cases h

end Units

/-! ### Where it fails -/

/-- `Trace(None)` is refused; a list of samples is not, and has limits, but everything else raises a `TypeError`. -/
theorem C148_list_counterexample (data : List (Option ℝ)) (S : Interp) (B : Solver) : construct none = .error .value ∧ construct (some ⟨false, data⟩) = .ok ⟨false, data⟩ ∧
    (∀ dom f, (⟨false, data⟩ : Trace).pdf dom f = .error .type ∧ (⟨false, data⟩ : Trace).cdf dom f = .error .type) ∧
    (∀ us, (⟨false, data⟩ : Trace).draw S B us = .error .type) ∧ (∀ s, (⟨false, data⟩ : Trace).grid S B s = .error .type) ∧
    (⟨false, data⟩ : Trace).loc = .error .type ∧ (⟨false, data⟩ : Trace).scale = .error .type ∧ ∀ f, (⟨false, data⟩ : Trace).limits f = (⟨true, data⟩ : Trace).limits f := by
  refine ⟨rfl, rfl, fun dom f => ⟨rfl, rfl⟩, fun us => rfl, fun s => rfl, rfl, rfl, fun f => rfl⟩

/-- A chain whose samples are all equal has no distribution: a `ValueError`. With fewer than four bins there is one, but nothing is drawn from it, and with two samples there are always two bins. -/
theorem C148_few_counterexample (S : Interp) (B : Solver) :
    (∀ t : Trace, t.isArray = true → (t.finite = [] ∨ least t.finite = most t.finite) → ∀ dom f us, t.pdf dom f = .error .value ∧ t.cdf dom f = .error .value ∧ t.draw S B us = .error .value) ∧
    (∀ (t : Trace) n, t.isArray = true → nBins t.finite = .ok n → n < 4 → ∀ us, t.draw S B us = .error .fitpack) ∧
    ∀ x y : ℝ, x ≠ y → nBins [x, y] = .ok 2 := by
  refine ⟨fun t ha h dom f us => ?_, fun t n ha hn h us => ?_, fun x y hxy => ?_⟩
  · have hb := (C148_bins t.finite).1 h
    have hc : ∀ dom f, t.cdf dom f = .error .value := fun dom f => by
      unfold Trace.cdf
      rw [keep_eq, if_pos ha]
      simp only [hb]
    refine ⟨?_, hc dom f, ?_⟩
    · unfold Trace.pdf
      rw [keep_eq, if_pos ha]
      simp only [hb]
    · simp only [Trace.draw, Trace.fromDiscrete, hc]
  · simp only [Trace.draw, Trace.fromDiscrete, cdf_of ha hn, table, centers_length]
    rw [if_pos h]
  · have hm : mean [x, y] = (x + y) / 2 := by simp [mean]
    have hs : std [x, y] = |x - y| / 2 := by
      rw [std, hm]
      have : (([x, y].map fun z => (z - (x + y) / 2) ^ 2).sum / (([x, y] : List ℝ).length : ℝ)) = ((x - y) / 2) ^ 2 := by simp; ring
      rw [this, Real.sqrt_sq_eq_abs, abs_div, abs_of_pos (show (0 : ℝ) < 2 by norm_num)]
    have hd : 0 < |x - y| := abs_pos.2 (sub_ne_zero.2 hxy)
    have hr : most [x, y] - least [x, y] = |x - y| := by
      simp only [most, least]
      rw [abs_sub_comm, ← max_sub_min_eq_abs]
    have hp : (0 : ℝ) < (2 : ℝ) ^ (1 / 3 : ℝ) := by positivity
    have hp2 : (2 : ℝ) ^ (1 / 3 : ℝ) < 1.75 := by
      have h1 : ((2 : ℝ) ^ (1 / 3 : ℝ)) ^ 3 = 2 := by
        rw [← Real.rpow_natCast, ← Real.rpow_mul (by norm_num)]
        norm_num
      by_contra hc
      have h2 := pow_le_pow_left₀ (by norm_num) (not_lt.1 hc) 3
      rw [h1] at h2
      norm_num at h2
    rw [nBins, if_neg (by simp), if_neg (by rw [hs]; positivity), hr, width, hs]
    have hlen : (([x, y] : List ℝ).length : ℝ) = 2 := by norm_num
    rw [hlen]
    have he : |x - y| / (3.5 * (|x - y| / 2) / (2 : ℝ) ^ (1 / 3 : ℝ)) = (2 : ℝ) ^ (1 / 3 : ℝ) / 1.75 := by
      field_simp
      norm_num
    rw [he]
    have : ⌈(2 : ℝ) ^ (1 / 3 : ℝ) / 1.75⌉₊ = 1 := by
      rw [Nat.ceil_eq_iff (by norm_num)]
      constructor
      · norm_num
        positivity
      · rw [div_le_iff₀ (by norm_num)]
        push_cast
        linarith
    rw [this]

/-- A case: eight samples -/
def eight : List ℝ := [-1, 0, 0, 0, 0, 0, 0, 1]

/-- Eight samples from -1 to 1: six bins, so that the hypotheses of the theorems hold; one sample in the first bin, and so any random number below 1/8 is an error of `draw`, and the default
`grid()` (the first level is 1/6) is not. -/
theorem C148_case : nBins eight = .ok 6 ∧ ∃ xs cs, (⟨true, eight.map some⟩ : Trace).cdf none 1 = .ok (xs, cs) ∧ xs.length = 6 ∧ cs.getD 0 0 = 1 / 8 ∧
    ∀ S B, Smooth S → Bisects B → (∀ u, u < 1 / 8 → (⟨true, eight.map some⟩ : Trace).draw S B [u] = .error .value) ∧ ∃ d, (⟨true, eight.map some⟩ : Trace).grid S B 5 = .ok d ∧ d.values.length = 5 := by
  have hm : mean eight = 0 := by simp [mean, eight]
  have hs : std eight = 1 / 2 := by
    rw [std, hm]
    have : ((eight.map fun x => (x - 0) ^ 2).sum / eight.length : ℝ) = (1 / 2) ^ 2 := by simp [eight]; norm_num
    rw [this, Real.sqrt_sq (by norm_num)]
  have hl : least eight = -1 := by simp [least, eight]
  have hM : most eight = 1 := by simp [most, eight]
  have hlen : (eight.length : ℝ) = 8 := by simp [eight]
  have hp : (8 : ℝ) ^ (1 / 3 : ℝ) = 2 := by
    rw [show (8 : ℝ) = 2 ^ (3 : ℝ) by norm_num, ← Real.rpow_mul (by norm_num)]
    norm_num
  have hn : nBins eight = .ok 6 := by
    rw [nBins, if_neg (by simp [eight]), if_neg (by rw [hs]; norm_num), width, hs, hl, hM, hlen, hp]
    have : ⌈((1 : ℝ) - -1) / (3.5 * (1 / 2) / 2)⌉₊ = 3 := by
      rw [Nat.ceil_eq_iff (by norm_num)]
      norm_num
    rw [this]
  have hf : (⟨true, eight.map some⟩ : Trace).finite = eight := by simp [Trace.finite, eight]
  have hc := cdf_of (t := ⟨true, eight.map some⟩) rfl (by rw [hf]; exact hn) none 1
  have hv : least eight ≠ most eight := by rw [hl, hM]; norm_num
  have h0 : (cumulative eight 6).getD 0 0 = 1 / 8 := by
    rw [cumulative_get (by simp [eight]) (by omega), frac, hlen]
    have he : edge eight 6 (0 + 1) = -2 / 3 := by
      rw [edge, first_eq hv, last_eq hv, hl, hM]
      norm_num
    have : (eight.filter fun x => decide (upTo eight 6 0 x)) = [-1] := by
      simp only [upTo, he]
      simp only [eight, List.filter_cons, List.filter_nil]
      norm_num
    rw [this]
    norm_num
  rw [hf] at hc
  have h6 : (centers eight 6).length = 6 := centers_length _ _
  refine ⟨hn, _, _, hc, h6, h0, fun S B hS hB => ⟨fun u hu => ?_, ?_⟩⟩
  · refine (C148_draw_counterexample hS hB hc (by omega)).2.2 [u] (fun v hv => ?_) ⟨u, by simp, by rw [h0]; exact hu⟩
    rw [List.mem_singleton] at hv
    rw [hv]
    linarith
  · obtain ⟨d, hd, hd', _⟩ := C148_grid_partial hS hB hc (by omega) (s := 5) (by norm_num) (by rw [h0]; norm_num)
    exact ⟨d, hd, hd'⟩

end Verif.Trace
