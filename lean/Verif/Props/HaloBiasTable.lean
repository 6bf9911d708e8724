/-
C114: the table of masses, and the velocity dispersion.
-/
import Verif.Props.HaloBias

namespace Verif.HaloBias

open Set Verif.Interp

noncomputable section

/-! ### The velocity dispersion -/

/-- C114: with the default relation and with a virial normalisation, more massive haloes have a larger dispersion. -/
theorem C114_sigmav_increasing (r : Rel) (hH : 0 < r.cosmo.H r.z) (hH0 : 0 < r.cosmo.H 0) (hz : -1 < r.z) (hs : ∀ s, r.sigmav0 = some s → 0 < s) (hm : ∀ m, r.M0 = some m → 0 < m)
    {M M' : ℝ} (hM : 0 < M) (h : M < M') : sigmavOfMass r M < sigmavOfMass r M' := by
  have hz' : 0 < 1 + r.z := by linarith
  have ev : evrard r M < evrard r M' := by
    unfold evrard
    have hE : 0 < r.cosmo.H r.z / r.cosmo.H 0 := div_pos hH hH0
    have h1 : (r.cosmo.H r.z / r.cosmo.H 0 * M / 10 ^ 15) ^ (0.336 : ℝ) < (r.cosmo.H r.z / r.cosmo.H 0 * M' / 10 ^ 15) ^ (0.336 : ℝ) :=
      Real.rpow_lt_rpow (by positivity) (by gcongr) (by norm_num)
    have h3 : (0 : ℝ) < 3 ^ (0.5 : ℝ) := Real.rpow_pos_of_pos (by norm_num) _
    gcongr
  unfold sigmavOfMass
  split
  · rename_i s m hs0 hm0
    have := hs s hs0
    have := hm m hm0
    have h1 : (M / m) ^ ((1 : ℝ) / 3) < (M' / m) ^ ((1 : ℝ) / 3) := Real.rpow_lt_rpow (by positivity) (by gcongr) (by norm_num)
    gcongr
  · exact ev

/-- The line-of-sight dispersion of Evrard et al. in km/s: `1082.9 km/s (E(z) M / 10^15)^0.336 / √3`. -/
def evrardKms (E M : ℝ) : ℝ := 1082.9 * (E * M / 10 ^ 15) ^ (0.336 : ℝ) / (3 : ℝ) ^ (0.5 : ℝ)

/-- Specification: a velocity in km/s as a comoving distance in Mpc/h, `v (1+z)/(100 E(z))`. -/
def asMpch (v z E : ℝ) : ℝ := v * (1 + z) / (100 * E)

/-- C114 fails: the dispersion is not in Mpc/h, as documented, but in Mpc: the value is too large by `1/h`. -/
theorem C114_evrard_units_counterexample (r : Rel) (hH : 0 < r.cosmo.H r.z) (hH0 : 0 < r.cosmo.H 0) (M : ℝ) :
    evrard r M * (r.cosmo.H 0 / 100) = asMpch (evrardKms (r.cosmo.H r.z / r.cosmo.H 0) M) r.z (r.cosmo.H r.z / r.cosmo.H 0) := by
  unfold evrard asMpch evrardKms
  field_simp

/-! ### The table -/

theorem s8Node_lt {i j : ℕ} (h : i < j) : s8Node i < s8Node j := by
  have : (i : ℝ) < j := by exact_mod_cast h
  unfold s8Node
  linarith

theorem b1Node_lt {i j : ℕ} (h : i < j) : b1Node i < b1Node j := by
  have : (i : ℝ) < j := by exact_mod_cast h
  unfold b1Node
  linarith

theorem tableInterp_good (t : ℕ → ℕ → ℝ) : ∀ g ∈ (tableInterp t).grid, GoodGrid g := by
  intro g hg
  simp only [tableInterp, List.mem_cons, List.not_mem_nil, or_false] at hg
  rcases hg with rfl | rfl
  · refine ⟨?_, by simp⟩
    rw [List.pairwise_map]
    exact List.pairwise_lt_range.imp s8Node_lt
  · refine ⟨?_, by simp⟩
    rw [List.pairwise_map]
    exact List.pairwise_lt_range.imp b1Node_lt

theorem inDomain_iff (t : ℕ → ℕ → ℝ) (s b : ℝ) :
    InDomain (tableInterp t).grid [s, b] ↔ s ∈ Icc (s8Node 0) (s8Node 99) ∧ b ∈ Icc (b1Node 0) (b1Node 69) := by
  have h1 : ∀ h, ((List.range 100).map s8Node).head h = s8Node 0 := fun h => by simp
  have h2 : ∀ h, ((List.range 70).map b1Node).head h = b1Node 0 := fun h => by simp
  have h3 : ∀ h, ((List.range 100).map s8Node).getLast h = s8Node 99 := fun h => by simp [List.getLast_map]
  have h4 : ∀ h, ((List.range 70).map b1Node).getLast h = b1Node 69 := fun h => by simp [List.getLast_map]
  have n1 : (List.range 100).map s8Node ≠ [] := by simp
  have n2 : (List.range 70).map b1Node ≠ [] := by simp
  unfold InDomain tableInterp
  simp only [List.forall₂_cons, List.Forall₂.nil, and_true, h1, h2, h3, h4, exists_prop, n1, n2, ne_eq, not_false_eq_true, true_and, mem_Icc]

theorem s8Node_le {i j : ℕ} (h : i ≤ j) : s8Node i ≤ s8Node j := by
  rcases h.lt_or_eq with h | rfl
  · exact (s8Node_lt h).le
  · exact le_rfl

theorem b1Node_le {i j : ℕ} (h : i ≤ j) : b1Node i ≤ b1Node j := by
  rcases h.lt_or_eq with h | rfl
  · exact (b1Node_lt h).le
  · exact le_rfl

theorem call_node (t : ℕ → ℕ → ℝ) (i j : ℕ) (hi : i < 100) (hj : j < 70) : call (tableInterp t) [[s8Node i, b1Node j]] none = .values [some (t i j)] := by
  obtain ⟨-, h⟩ := C90_domain (tableInterp t) (tableInterp_good t) rfl [[s8Node i, b1Node j]] (by simp [tableInterp]) none
  have hin : ∀ x ∈ [[s8Node i, b1Node j]], InDomain (tableInterp t).grid x := by
    intro x hx
    simp only [List.mem_singleton] at hx
    subst hx
    rw [inDomain_iff]
    exact ⟨⟨s8Node_le (by omega), s8Node_le (by omega)⟩, ⟨b1Node_le (by omega), b1Node_le (by omega)⟩⟩
  rw [h hin]
  have := C90_nodes (tableInterp t) (tableInterp_good t) [i, j] [s8Node i, b1Node j] (by simp [tableInterp, hi, hj]) (by simp [tableInterp])
  simp only [List.map_cons, List.map_nil, Option.getD_none]
  show Out.values [evalPoint (tableInterp t) .linear [s8Node i, b1Node j]] = _
  rw [this]
  simp [tableInterp]

theorem mkTable_spec (brentq : Solver) (spl : Cosmo → ℝ → ℝ) (c : Cosmo) (t : ℕ → ℕ → ℝ) (h : mkTable brentq spl c = .ok t) (i j : ℕ) (hi : i < 100) (hj : j < 70) :
    tableEntry brentq spl c (s8Node i) (b1Node j) = .ok (t i j) := by
  unfold mkTable at h
  split_ifs at h with hx
  simp only [Except.ok.injEq] at h
  subst h
  simp only [dif_pos (And.intro hi hj)]
  exact (hx i hi j hj).choose_spec

theorem tableEntry_sound (brentq : Solver) (hB : IsBrentq brentq) (spl : Cosmo → ℝ → ℝ) (c : Cosmo) (s b M : ℝ) (h : tableEntry brentq spl c s b = .ok M) :
    biasTinker (amplitude { c with Sigma := spl c } s M) 1.686 200 = b := by
  unfold tableEntry at h
  simp only at h
  split at h
  · rename_i x hx
    simp only [Except.ok.injEq] at h
    subst h
    have := (hB.root _ _ _ _ hx).2.2
    have e : s / c.sigma8 * spl c (massToRadius c x) = amplitude { c with Sigma := spl c } s (x * 10 ^ 13) := by
      simp only [amplitude, massToRadius, mul_assoc]
    rw [e] at this
    linarith
  · cases h

/-- C114: with the table, at a node, the mass has the bias asked for, at the overdensity 200 and with the fluctuations of the spline. -/
theorem C114_table_node (brentq : Solver) (hB : IsBrentq brentq) (spl : Cosmo → ℝ → ℝ) (r : Rel) (hr : r.interpolate = true) (hn : r.table = none) (t : ℕ → ℕ → ℝ)
    (ht : mkTable brentq spl r.cosmo = .ok t) (i j : ℕ) (hi : i < 100) (hj : j < 70) :
    ∃ M, mass brentq spl r (s8Node i) (b1Node j) = (.ok M, { r with table := some t }) ∧
      biasTinker (amplitude { r.cosmo with Sigma := spl r.cosmo } (s8Node i) M) 1.686 200 = b1Node j := by
  refine ⟨t i j, ?_, tableEntry_sound brentq hB spl r.cosmo _ _ _ (mkTable_spec brentq spl r.cosmo t ht i j hi hj)⟩
  unfold mass
  simp only [hr, if_true, hn, ht, call_node t i j hi hj]

/-- C114: with the table, between nodes, the mass is between the least and the greatest at the four nodes around. -/
theorem C114_table_between (brentq : Solver) (spl : Cosmo → ℝ → ℝ) (r : Rel) (hr : r.interpolate = true) (t : ℕ → ℕ → ℝ) (ht : r.table = some t)
    (i j : ℕ) (hi : i + 1 < 100) (hj : j + 1 < 70) (s b lo hi' : ℝ) (hs : s ∈ Icc (s8Node i) (s8Node (i + 1))) (hb : b ∈ Icc (b1Node j) (b1Node (j + 1)))
    (hc : ∀ i' ∈ Icc i (i + 1), ∀ j' ∈ Icc j (j + 1), t i' j' ∈ Icc lo hi') :
    ∃ M, (mass brentq spl r s b).1 = .ok M ∧ M ∈ Icc lo hi' := by
  have hin : ∀ x ∈ [[s, b]], InDomain (tableInterp t).grid x := by
    intro x hx
    simp only [List.mem_singleton] at hx
    subst hx
    rw [inDomain_iff]
    exact ⟨⟨(s8Node_le (by omega)).trans hs.1, hs.2.trans (s8Node_le (by omega))⟩, ⟨(b1Node_le (by omega)).trans hb.1, hb.2.trans (b1Node_le (by omega))⟩⟩
  have hcall := (C90_domain (tableInterp t) (tableInterp_good t) rfl [[s, b]] (by simp [tableInterp]) none).2 hin
  obtain ⟨v, hv, hl, hu⟩ := C90_between (tableInterp t) (tableInterp_good t) [s, b] (by simp [tableInterp]) [i, j]
    (by
      simp only [tableInterp, List.zip_cons_cons, List.zip_nil_right, List.forall₂_cons, List.Forall₂.nil, and_true]
      refine ⟨⟨by simpa using hi, ?_⟩, ⟨by simpa using hj, ?_⟩⟩
      · simpa using hs
      · simpa using hb) lo hi'
    (by
      intro r hr
      obtain ⟨i', r', rfl, h1, h2⟩ : ∃ i' r', r = i' :: r' ∧ (i' = i ∨ i' = i + 1) ∧ Corner [j] r' := by
        cases hr with
        | low hr => exact ⟨_, _, rfl, Or.inl rfl, hr⟩
        | high hr => exact ⟨_, _, rfl, Or.inr rfl, hr⟩
      obtain ⟨j', rfl, h3⟩ : ∃ j', r' = [j'] ∧ (j' = j ∨ j' = j + 1) := by
        cases h2 with
        | low h5 => cases h5; exact ⟨_, rfl, Or.inl rfl⟩
        | high h5 => cases h5; exact ⟨_, rfl, Or.inr rfl⟩
      have := hc i' (by rcases h1 with rfl | rfl <;> simp) j' (by rcases h3 with rfl | rfl <;> simp)
      simpa [tableInterp] using this)
  refine ⟨v, ?_, hl, hu⟩
  unfold mass
  simp only [hr, if_true, ht, hcall, List.map_cons, List.map_nil, Option.getD_none]
  have : evalPoint (tableInterp t) (tableInterp t).method [s, b] = some v := hv
  rw [this]

/-- C114: outside the table, and without it, the mass is that found afresh. -/
theorem C114_table_outside (brentq : Solver) (spl : Cosmo → ℝ → ℝ) (r : Rel) (s b : ℝ)
    (h : r.interpolate = false ∨ (∃ t, r.table = some t) ∧ ¬ (s ∈ Icc (s8Node 0) (s8Node 99) ∧ b ∈ Icc (b1Node 0) (b1Node 69))) :
    (mass brentq spl r s b).1 = massFresh brentq r.cosmo r.deltaHalo s b := by
  rcases h with h | ⟨⟨t, ht⟩, h⟩
  · unfold mass
    simp [h]
  · unfold mass
    by_cases hr : r.interpolate = true
    · have hcall := (C90_domain (tableInterp t) (tableInterp_good t) rfl [[s, b]] (by simp [tableInterp]) none).1.2 ⟨_, List.mem_singleton.2 rfl, by rwa [inDomain_iff]⟩
      simp only [hr, if_true, ht, hcall]
    · simp [hr]

end

end Verif.HaloBias
