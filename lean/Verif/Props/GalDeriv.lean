/-
C63 for the galaxy model: the analytic derivatives.
-/
import Verif.Props.Gal

namespace Verif.Rsd

open Verif.AP

variable {E : Type} (P Dk Dmu : ℝ → ℝ → ℝ → ℝ → ℝ) (k mu : ℝ) (m : GalM)

/-- The volume factor of the model. -/
noncomputable def GalM.vol (m : GalM) : ℝ := m.alphas.drag ^ 3 / (m.alphas.perp ^ 2 * m.alphas.par)

theorem rescale_eq (v : ℝ) : rescale m.alphas v = m.vol * v := by
  simp only [rescale, GalM.vol]; ring

/-! ### Values of the components -/

/-- The power, in the notation of `C62_population_sum`. -/
theorem value_galPower : value (galPower (baseOf (E := E) P Dk Dmu) k mu) m = m.vol * galCore P m (m.kp k mu) (m.mup mu) := by
  rw [galPower, decorated_pure k mu _ (fun m k mu => galCore P m k mu) (fun k mu => tgal_call P Dk Dmu k mu), value_pure, rescale_eq]

theorem Pcc_eq : Pcc (baseOf (E := E) P Dk Dmu) m k mu = m.vol * ccTotal P m (m.kp k mu) (m.mup mu) := by
  rw [Pcc, decorated_pure k mu _ (fun m k mu => ccTotal P m k mu) (fun k mu => tcc_call P Dk Dmu k mu), value_pure, rescale_eq]

theorem Pcs_eq : Pcs (baseOf (E := E) P Dk Dmu) m k mu = m.vol * csSum P m (m.kp k mu) (m.mup mu) := by
  rw [Pcs, decorated_pure k mu _ (fun m k mu => csSum P m k mu) (fun k mu => tcs_call P Dk Dmu k mu), value_pure, rescale_eq]

theorem Pss_eq : Pss (baseOf (E := E) P Dk Dmu) m k mu = m.vol * ssSum P m (m.kp k mu) (m.mup mu) := by
  rw [Pss, decorated_pure k mu _ (fun m k mu => ssSum P m k mu) (fun k mu => tss_call P Dk Dmu k mu), value_pure, rescale_eq]

theorem PcAcA_eq : PcAcA (baseOf (E := E) P Dk Dmu) m k mu =
    m.vol * (ccG m (m.kp k mu) (m.mup mu) ^ 2 * P m.b1cA m.b1cA (m.kp k mu) (m.mup mu) + m.N) := by
  rw [PcAcA, decorated_pure k mu _ (fun m k mu => _) (fun k mu => tcAcA_call P Dk Dmu k mu), value_pure, rescale_eq]

theorem PcAcB_eq : PcAcB (baseOf (E := E) P Dk Dmu) m k mu =
    m.vol * (ccG m (m.kp k mu) (m.mup mu) ^ 2 * P m.b1cA m.b1cB (m.kp k mu) (m.mup mu) + m.N) := by
  rw [PcAcB, decorated_pure k mu _ (fun m k mu => _) (fun k mu => tcAcB_call P Dk Dmu k mu), value_pure, rescale_eq]

theorem PcBcB_eq : PcBcB (baseOf (E := E) P Dk Dmu) m k mu =
    m.vol * (ccG m (m.kp k mu) (m.mup mu) ^ 2 * P m.b1cB m.b1cB (m.kp k mu) (m.mup mu) + m.N) := by
  rw [PcBcB, decorated_pure k mu _ (fun m k mu => _) (fun k mu => tcBcB_call P Dk Dmu k mu), value_pure, rescale_eq]

/-- The kernels at the true coordinates. -/
noncomputable abbrev GalM.Gc (m : GalM) (k mu : ℝ) : ℝ := m.fog.G (m.kp k mu) (m.mup mu) m.sigmaC
noncomputable abbrev GalM.GsA (m : GalM) (k mu : ℝ) : ℝ := m.fog.G (m.kp k mu) (m.mup mu) m.sigmaSA
noncomputable abbrev GalM.GsB (m : GalM) (k mu : ℝ) : ℝ := m.fog.G (m.kp k mu) (m.mup mu) m.sigmaSB
noncomputable abbrev GalM.Gso (m : GalM) (k mu : ℝ) : ℝ := m.fog.G (m.kp k mu) (m.mup mu) m.sigmaSo

theorem PcAsA_eq : PcAsA (baseOf (E := E) P Dk Dmu) m k mu =
    m.vol * (m.Gc k mu * m.GsA k mu * P m.b1cA m.b1sA (m.kp k mu) (m.mup mu) + m.N) := by
  rw [PcAsA, tcAsA, decorated_pure k mu _ (fun m k mu => _) (fun k mu => damped1 P Dk Dmu k mu _ _ _ _ _), value_pure, rescale_eq]; rfl

theorem PcAsB_eq : PcAsB (baseOf (E := E) P Dk Dmu) m k mu =
    m.vol * (m.Gc k mu * m.GsB k mu * P m.b1cA m.b1sB (m.kp k mu) (m.mup mu) + m.N) := by
  rw [PcAsB, tcAsB, decorated_pure k mu _ (fun m k mu => _) (fun k mu => damped1 P Dk Dmu k mu _ _ _ _ _), value_pure, rescale_eq]; rfl

theorem PcBsA_eq : PcBsA (baseOf (E := E) P Dk Dmu) m k mu =
    m.vol * (m.Gc k mu * m.GsA k mu * (P m.b1cB m.b1sA (m.kp k mu) (m.mup mu) + m.NcBs) + m.N) := by
  rw [PcBsA, tcBsA, decorated_pure k mu _ (fun m k mu => _) (fun k mu => damped2 P Dk Dmu k mu _ _ _ _ _ _), value_pure, rescale_eq]; rfl

theorem PcBsB_eq : PcBsB (baseOf (E := E) P Dk Dmu) m k mu =
    m.vol * (m.Gc k mu * m.GsB k mu * (P m.b1cB m.b1sB (m.kp k mu) (m.mup mu) + m.NcBs) + m.N) := by
  rw [PcBsB, tcBsB, decorated_pure k mu _ (fun m k mu => _) (fun k mu => damped2 P Dk Dmu k mu _ _ _ _ _ _), value_pure, rescale_eq]; rfl

theorem PsAsA_eq : PsAsA (baseOf (E := E) P Dk Dmu) m k mu =
    m.vol * (m.GsA k mu * m.GsA k mu * P m.b1sA m.b1sA (m.kp k mu) (m.mup mu) + m.N) := by
  rw [PsAsA, tsAsA, decorated_pure k mu _ (fun m k mu => _) (fun k mu => damped1 P Dk Dmu k mu _ _ _ _ _), value_pure, rescale_eq]; rfl

theorem PsAsB_eq : PsAsB (baseOf (E := E) P Dk Dmu) m k mu =
    m.vol * (m.GsA k mu * m.GsB k mu * P m.b1sA m.b1sB (m.kp k mu) (m.mup mu) + m.N) := by
  rw [PsAsB, tsAsB, decorated_pure k mu _ (fun m k mu => _) (fun k mu => damped1 P Dk Dmu k mu _ _ _ _ _), value_pure, rescale_eq]; rfl

theorem PsBsB_eq : PsBsB (baseOf (E := E) P Dk Dmu) m k mu =
    m.vol * (m.GsB k mu * m.GsB k mu * (P m.b1sB m.b1sB (m.kp k mu) (m.mup mu) + m.NsBsB) + m.N) := by
  rw [PsBsB, tsBsB, decorated_pure k mu _ (fun m k mu => _) (fun k mu => damped2 P Dk Dmu k mu _ _ _ _ _ _), value_pure, rescale_eq]; rfl

/-! ### Tools -/

theorem hasDerivAt_quad_gal (A B C x : ℝ) : HasDerivAt (fun y => A + B * y + C * y ^ 2) (B + 2 * C * x) x := by
  have h1 := ((hasDerivAt_id x).const_mul B).const_add A
  have h2 := (hasDerivAt_pow 2 x).const_mul C
  refine (h1.add h2).congr_deriv ?_
  simp; ring

/-- A function quadratic in its argument. -/
theorem deriv_of_quad {f : ℝ → ℝ} {x d : ℝ} (A B C : ℝ) (hf : ∀ y, f y = A + B * y + C * y ^ 2) (hd : d = B + 2 * C * x) :
    HasDerivAt f d x := by
  rw [hd]
  exact (hasDerivAt_quad_gal A B C x).congr_of_eventuallyEq (Filter.Eventually.of_forall hf)

/-- A function quadratic in a kernel of its argument. -/
theorem deriv_of_quad_comp {f g : ℝ → ℝ} {x d g' : ℝ} (hg : HasDerivAt g g' x) (A B C : ℝ) (hf : ∀ y, f y = A + B * g y + C * g y ^ 2)
    (hd : d = (B + 2 * C * g x) * g') : HasDerivAt f d x := by
  rw [hd]
  exact ((hasDerivAt_quad_gal A B C (g x)).comp x hg).congr_of_eventuallyEq (Filter.Eventually.of_forall hf)

theorem hasDerivAt_iff_of_exact {f : ℝ → ℝ} {x r e : ℝ} (h : HasDerivAt f (r + e) x) : HasDerivAt f r x ↔ e = 0 := by
  constructor
  · intro h'
    have := h.unique h'
    linarith
  · intro he; simpa [he] using h

/-! ### C63, galaxies -/

/-- **C63, galaxies: `fs`.** -/
theorem C63_gal_fs :
    HasDerivAt (fun x => value (galPower (baseOf (E := E) P Dk Dmu) k mu) { m with fs := x }) (dFs (baseOf (E := E) P Dk Dmu) m k mu) m.fs := by
  refine deriv_of_quad (m.vol * ccTotal P m (m.kp k mu) (m.mup mu))
    (m.vol * (-2 * ccTotal P m (m.kp k mu) (m.mup mu) + 2 * csSum P m (m.kp k mu) (m.mup mu)))
    (m.vol * (ccTotal P m (m.kp k mu) (m.mup mu) - 2 * csSum P m (m.kp k mu) (m.mup mu) + ssSum P m (m.kp k mu) (m.mup mu))) ?_ ?_
  · intro y
    rw [value_galPower]
    have h1 : ccTotal P { m with fs := y } = ccTotal P m := rfl
    have h2 : csSum P { m with fs := y } = csSum P m := rfl
    have h3 : ssSum P { m with fs := y } = ssSum P m := rfl
    simp only [galCore, h1, h2, h3, GalM.vol, GalM.kp, GalM.mup]
    ring
  · rw [dFs, Pcc_eq, Pcs_eq, Pss_eq]; ring

/-- What `dPgal_dfsB` omits: the dependence of the central-satellite spectrum on `fsB`. -/
noncomputable def fsBMissing (P : ℝ → ℝ → ℝ → ℝ → ℝ) (k mu : ℝ) (m : GalM) : ℝ :=
  2 * m.fs * (1 - m.fs) * m.vol * m.Gc k mu *
    (m.GsB k mu * ((1 - m.fcB) * P m.b1cA m.b1sB (m.kp k mu) (m.mup mu) + m.fcB * (P m.b1cB m.b1sB (m.kp k mu) (m.mup mu) + m.NcBs))
      - m.GsA k mu * ((1 - m.fcB) * P m.b1cA m.b1sA (m.kp k mu) (m.mup mu) + m.fcB * (P m.b1cB m.b1sA (m.kp k mu) (m.mup mu) + m.NcBs)))

theorem gal_fsB_exact :
    HasDerivAt (fun x => value (galPower (baseOf (E := E) P Dk Dmu) k mu) { m with fsB := x })
      (dFsB (baseOf (E := E) P Dk Dmu) m k mu + fsBMissing P k mu m) m.fsB := by
  set K := m.kp k mu
  set M := m.mup mu
  refine deriv_of_quad
    (m.vol * ((1 - m.fs) ^ 2 * ccTotal P m K M + 2 * m.fs * (1 - m.fs) * ((1 - m.fcB) * (m.Gc k mu * m.GsA k mu * P m.b1cA m.b1sA K M)
      + m.fcB * (m.Gc k mu * m.GsA k mu * (P m.b1cB m.b1sA K M + m.NcBs))) + m.fs ^ 2 * (m.GsA k mu * m.GsA k mu * P m.b1sA m.b1sA K M)))
    (m.vol * (2 * m.fs * (1 - m.fs) * (- ((1 - m.fcB) * (m.Gc k mu * m.GsA k mu * P m.b1cA m.b1sA K M))
      + (1 - m.fcB) * (m.Gc k mu * m.GsB k mu * P m.b1cA m.b1sB K M)
      - m.fcB * (m.Gc k mu * m.GsA k mu * (P m.b1cB m.b1sA K M + m.NcBs))
      + m.fcB * (m.Gc k mu * m.GsB k mu * (P m.b1cB m.b1sB K M + m.NcBs)))
      + m.fs ^ 2 * (-2 * (m.GsA k mu * m.GsA k mu * P m.b1sA m.b1sA K M) + 2 * (m.GsA k mu * m.GsB k mu * P m.b1sA m.b1sB K M))))
    (m.vol * m.fs ^ 2 * ((m.GsA k mu * m.GsA k mu * P m.b1sA m.b1sA K M) - 2 * (m.GsA k mu * m.GsB k mu * P m.b1sA m.b1sB K M)
      + (m.GsB k mu * m.GsB k mu * (P m.b1sB m.b1sB K M + m.NsBsB)))) ?_ ?_
  · intro y
    rw [value_galPower]
    have h1 : ccTotal P { m with fsB := y } = ccTotal P m := rfl
    have hK : GalM.kp { m with fsB := y } k mu = K := rfl
    have hM : GalM.mup { m with fsB := y } mu = M := rfl
    have hv : GalM.vol { m with fsB := y } = m.vol := rfl
    simp only [galCore, h1, hK, hM, hv, csSum, ssSum]
    ring
  · rw [dFsB, PsAsA_eq, PsAsB_eq, PsBsB_eq, fsBMissing]
    ring

/-- **C63, galaxies: `fsB` (partial)**: the reported value is the derivative exactly when the omitted central-satellite contribution
vanishes (for example without satellites, or with identical satellite populations). -/
theorem C63_gal_fsB_partial :
    HasDerivAt (fun x => value (galPower (baseOf (E := E) P Dk Dmu) k mu) { m with fsB := x }) (dFsB (baseOf (E := E) P Dk Dmu) m k mu) m.fsB ↔
      fsBMissing P k mu m = 0 := hasDerivAt_iff_of_exact (gal_fsB_exact P Dk Dmu k mu m)

/-- What `dPgal_dfcB` has wrong: the factor `alpha_drag**3` of the SO one-halo term. -/
noncomputable def fcBMissing (k mu : ℝ) (m : GalM) : ℝ :=
  if m.useSo then (1 - m.fs) ^ 2 * (2 * m.Gc k mu * m.Gso k mu * m.fso * m.NcBs / (m.alphas.perp ^ 2 * m.alphas.par)) * (m.alphas.drag ^ 3 - 1)
  else 0

/-- The kernel factor of a pair of centrals, at the true coordinates. -/
noncomputable def GalM.mix (m : GalM) (k mu : ℝ) : ℝ :=
  if m.useSo then (1 - m.fso) * m.Gc k mu + m.fso * m.Gso k mu else m.Gc k mu

theorem gal_fcB_exact :
    HasDerivAt (fun x => value (galPower (baseOf (E := E) P Dk Dmu) k mu) { m with fcB := x })
      (dFcB (baseOf (E := E) P Dk Dmu) m k mu + fcBMissing k mu m) m.fcB := by
  set K := m.kp k mu with hKd
  set M := m.mup mu with hMd
  refine deriv_of_quad
    (m.vol * ((1 - m.fs) ^ 2 * (m.mix k mu ^ 2 * P m.b1cA m.b1cA K M) + 2 * m.fs * (1 - m.fs) *
        ((1 - m.fsB) * (m.Gc k mu * m.GsA k mu * P m.b1cA m.b1sA K M) + m.fsB * (m.Gc k mu * m.GsB k mu * P m.b1cA m.b1sB K M))
      + m.fs ^ 2 * ssSum P m K M))
    (m.vol * ((1 - m.fs) ^ 2 * (m.mix k mu ^ 2 * (-2 * P m.b1cA m.b1cA K M + 2 * P m.b1cA m.b1cB K M)
        + (if m.useSo then 2 * m.Gc k mu * m.Gso k mu * m.fso * m.NcBs else 0))
      + 2 * m.fs * (1 - m.fs) *
        ((1 - m.fsB) * (m.Gc k mu * m.GsA k mu * (P m.b1cB m.b1sA K M + m.NcBs) - m.Gc k mu * m.GsA k mu * P m.b1cA m.b1sA K M)
          + m.fsB * (m.Gc k mu * m.GsB k mu * (P m.b1cB m.b1sB K M + m.NcBs) - m.Gc k mu * m.GsB k mu * P m.b1cA m.b1sB K M))))
    (m.vol * (1 - m.fs) ^ 2 * m.mix k mu ^ 2 * (P m.b1cA m.b1cA K M - 2 * P m.b1cA m.b1cB K M + P m.b1cB m.b1cB K M)) ?_ ?_
  · intro y
    rw [value_galPower]
    have h1 : ssSum P { m with fcB := y } = ssSum P m := rfl
    have hK : GalM.kp { m with fcB := y } k mu = K := rfl
    have hM : GalM.mup { m with fcB := y } mu = M := rfl
    have hv : GalM.vol { m with fcB := y } = m.vol := rfl
    simp only [galCore, h1, hK, hM, hv, csSum, ccTotal, ccSum, GalM.mix]
    cases m.useSo <;> simp <;> ring
  · rw [dFcB, PcAcA_eq, PcAcB_eq, PcBcB_eq, PcAsA_eq, PcAsB_eq, PcBsA_eq, PcBsB_eq, fcBMissing]
    simp only [GalM.mix, ccG, ← hKd, ← hMd]
    cases m.useSo <;> simp [GalM.vol] <;> ring

/-- **C63, galaxies: `fcB` (partial)**: right without SO correction or with `alpha_drag = 1`; in general exactly when
the wrongly scaled term vanishes. -/
theorem C63_gal_fcB_partial :
    HasDerivAt (fun x => value (galPower (baseOf (E := E) P Dk Dmu) k mu) { m with fcB := x }) (dFcB (baseOf (E := E) P Dk Dmu) m k mu) m.fcB ↔
      fcBMissing k mu m = 0 := hasDerivAt_iff_of_exact (gal_fcB_exact P Dk Dmu k mu m)

theorem gal_NcBs_exact :
    HasDerivAt (fun x => value (galPower (baseOf (E := E) P Dk Dmu) k mu) { m with NcBs := x })
      (dNcBs m k mu + dNcBs m k mu * (m.alphas.drag ^ 3 - 1)) m.NcBs := by
  set K := m.kp k mu with hKd
  set M := m.mup mu with hMd
  refine deriv_of_quad
    (value (galPower (baseOf (E := E) P Dk Dmu) k mu) { m with NcBs := 0 })
    (dNcBs m k mu * m.alphas.drag ^ 3) 0 ?_ ?_
  · intro y
    rw [value_galPower, value_galPower]
    have hK : ∀ y, GalM.kp { m with NcBs := y } k mu = K := fun _ => rfl
    have hM : ∀ y, GalM.mup { m with NcBs := y } mu = M := fun _ => rfl
    have hv : ∀ y, GalM.vol { m with NcBs := y } = m.vol := fun _ => rfl
    simp only [galCore, hK, hM, hv, csSum, ccTotal, ccSum, ssSum, dNcBs, GalM.vol, ← hKd, ← hMd]
    cases m.useSo <;> simp <;> ring
  · ring

/-- **C63, galaxies: `NcBs` (partial)**: the reported value lacks the factor `alpha_drag**3`, so it is right exactly if
`alpha_drag**3 = 1` or the term vanishes. -/
theorem C63_gal_NcBs_partial :
    HasDerivAt (fun x => value (galPower (baseOf (E := E) P Dk Dmu) k mu) { m with NcBs := x }) (dNcBs m k mu) m.NcBs ↔
      dNcBs m k mu * (m.alphas.drag ^ 3 - 1) = 0 := hasDerivAt_iff_of_exact (gal_NcBs_exact P Dk Dmu k mu m)

theorem gal_NsBsB_exact :
    HasDerivAt (fun x => value (galPower (baseOf (E := E) P Dk Dmu) k mu) { m with NsBsB := x })
      (dNsBsB m k mu + dNsBsB m k mu * (m.alphas.drag ^ 3 - 1)) m.NsBsB := by
  set K := m.kp k mu with hKd
  set M := m.mup mu with hMd
  refine deriv_of_quad
    (value (galPower (baseOf (E := E) P Dk Dmu) k mu) { m with NsBsB := 0 })
    (dNsBsB m k mu * m.alphas.drag ^ 3) 0 ?_ ?_
  · intro y
    rw [value_galPower, value_galPower]
    have hK : ∀ y, GalM.kp { m with NsBsB := y } k mu = K := fun _ => rfl
    have hM : ∀ y, GalM.mup { m with NsBsB := y } mu = M := fun _ => rfl
    have hv : ∀ y, GalM.vol { m with NsBsB := y } = m.vol := fun _ => rfl
    simp only [galCore, hK, hM, hv, csSum, ccTotal, ccSum, ssSum, dNsBsB, GalM.vol, ← hKd, ← hMd]
    cases m.useSo <;> simp <;> ring
  · ring

/-- **C63, galaxies: `NsBsB` (partial)**: lacks the factor `alpha_drag**3`. -/
theorem C63_gal_NsBsB_partial :
    HasDerivAt (fun x => value (galPower (baseOf (E := E) P Dk Dmu) k mu) { m with NsBsB := x }) (dNsBsB m k mu) m.NsBsB ↔
      dNsBsB m k mu * (m.alphas.drag ^ 3 - 1) = 0 := hasDerivAt_iff_of_exact (gal_NsBsB_exact P Dk Dmu k mu m)

/-- What `dPgal_df_so` has wrong: the shot noise `N` in the component spectra, and the factor `alpha_drag**3` of the one-halo term. -/
noncomputable def fsoMissing (k mu : ℝ) (m : GalM) : ℝ :=
  if m.useSo then
    (1 - m.fs) ^ 2 * (2 * m.Gc k mu * m.Gso k mu * m.fcB * m.NcBs / (m.alphas.perp ^ 2 * m.alphas.par) * (m.alphas.drag ^ 3 - 1)
      - 2 * ((1 - m.fso) * m.Gc k mu + m.fso * m.Gso k mu) * (m.Gso k mu - m.Gc k mu) * m.vol * m.N)
  else 0

theorem gal_fso_exact :
    HasDerivAt (fun x => value (galPower (baseOf (E := E) P Dk Dmu) k mu) { m with fso := x })
      (dFso (baseOf (E := E) P Dk Dmu) m k mu + fsoMissing k mu m) m.fso := by
  set K := m.kp k mu with hKd
  set M := m.mup mu with hMd
  refine deriv_of_quad
    (value (galPower (baseOf (E := E) P Dk Dmu) k mu) { m with fso := 0 })
    (if m.useSo then m.vol * (1 - m.fs) ^ 2 * (2 * (m.Gso k mu - m.Gc k mu) * m.Gc k mu * ccSum P m K M
      + 2 * m.Gc k mu * m.Gso k mu * m.fcB * m.NcBs) else 0)
    (if m.useSo then m.vol * (1 - m.fs) ^ 2 * (m.Gso k mu - m.Gc k mu) ^ 2 * ccSum P m K M else 0) ?_ ?_
  · intro y
    rw [value_galPower, value_galPower]
    have hK : ∀ y, GalM.kp { m with fso := y } k mu = K := fun _ => rfl
    have hM : ∀ y, GalM.mup { m with fso := y } mu = M := fun _ => rfl
    have hv : ∀ y, GalM.vol { m with fso := y } = m.vol := fun _ => rfl
    have hc : ∀ y, ccSum P { m with fso := y } = ccSum P m := fun _ => rfl
    simp only [galCore, hK, hM, hv, csSum, ccTotal, hc, ssSum, ← hKd, ← hMd]
    cases m.useSo <;> simp <;> ring
  · rw [dFso, PcAcA_eq, PcAcB_eq, PcBcB_eq, fsoMissing]
    simp only [ccG, ccSum, ← hKd, ← hMd]
    cases h : m.useSo
    · simp
    · simp [GalM.vol]; ring

/-- **C63, galaxies: `f_so` (partial)**: right exactly when the two errors cancel, in particular for `N = 0` and `alpha_drag = 1`, and without
SO correction. -/
theorem C63_gal_fso_partial :
    HasDerivAt (fun x => value (galPower (baseOf (E := E) P Dk Dmu) k mu) { m with fso := x }) (dFso (baseOf (E := E) P Dk Dmu) m k mu) m.fso ↔
      fsoMissing k mu m = 0 := hasDerivAt_iff_of_exact (gal_fso_exact P Dk Dmu k mu m)

/-- What `dPgal_dsigma_c` has wrong: the factor `alpha_drag**3` of the SO one-halo term. -/
noncomputable def sigmaCMissing (k mu : ℝ) (m : GalM) : ℝ :=
  if m.useSo then
    (1 - m.fs) ^ 2 * (2 * m.Gso k mu * m.fso * m.fcB * m.NcBs / (m.alphas.perp ^ 2 * m.alphas.par)) *
      m.fog.dsigma (m.kp k mu) (m.mup mu) m.sigmaC * (m.alphas.drag ^ 3 - 1)
  else 0

/-- The central-satellite spectrum without the kernel of the central. -/
theorem csSum_factor (k mu : ℝ) : csSum P m k mu = m.fog.G k mu m.sigmaC * csSum P { m with sigmaC := 0, useSo := false } k mu := by
  simp only [csSum, fog_zero]
  ring

theorem gal_sigmaC_exact :
    HasDerivAt (fun x => value (galPower (baseOf (E := E) P Dk Dmu) k mu) { m with sigmaC := x })
      (dSigmaC (baseOf (E := E) P Dk Dmu) m k mu + sigmaCMissing k mu m) m.sigmaC := by
  set K := m.kp k mu with hKd
  set M := m.mup mu with hMd
  have hg := m.fog.dsigma_correct K M m.sigmaC
  set cs0 := csSum P { m with sigmaC := 0, useSo := false } K M with hcs0
  refine deriv_of_quad_comp hg
    (m.vol * ((1 - m.fs) ^ 2 * (if m.useSo then (m.fso * m.Gso k mu) ^ 2 * ccSum P m K M else 0) + m.fs ^ 2 * ssSum P m K M))
    (m.vol * ((1 - m.fs) ^ 2 * (if m.useSo then 2 * m.fso * (1 - m.fso) * m.Gso k mu * ccSum P m K M
      + 2 * m.Gso k mu * m.fso * m.fcB * m.NcBs else 0) + 2 * m.fs * (1 - m.fs) * cs0))
    (m.vol * (1 - m.fs) ^ 2 * (if m.useSo then (1 - m.fso) ^ 2 * ccSum P m K M else ccSum P m K M)) ?_ ?_
  · intro y
    rw [value_galPower]
    have hK : GalM.kp { m with sigmaC := y } k mu = K := rfl
    have hM : GalM.mup { m with sigmaC := y } mu = M := rfl
    have hv : GalM.vol { m with sigmaC := y } = m.vol := rfl
    have hc : ccSum P { m with sigmaC := y } = ccSum P m := rfl
    have hs : ssSum P { m with sigmaC := y } = ssSum P m := rfl
    have hcs : csSum P { m with sigmaC := y } K M = m.fog.G K M y * cs0 := by
      rw [csSum_factor]
    simp only [galCore, hK, hM, hv, hcs, ccTotal, hc, hs, ← hKd, ← hMd]
    cases m.useSo <;> simp <;> ring
  · rw [dSigmaC, Pcc_eq, Pcc_eq, Pcs_eq, sigmaCMissing]
    have hK : GalM.kp { m with sigmaC := 0 } k mu = K := rfl
    have hM : GalM.mup { m with sigmaC := 0 } mu = M := rfl
    have hK' : GalM.kp { m with sigmaC := 0, useSo := false } k mu = K := rfl
    have hM' : GalM.mup { m with sigmaC := 0, useSo := false } mu = M := rfl
    have hv : GalM.vol { m with sigmaC := 0 } = m.vol := rfl
    have hv' : GalM.vol { m with sigmaC := 0, useSo := false } = m.vol := rfl
    have hc : ccSum P { m with sigmaC := 0 } = ccSum P m := rfl
    have hc' : ccSum P { m with sigmaC := 0, useSo := false } = ccSum P m := rfl
    simp only [hK, hM, hK', hM', hv, hv', ccTotal, hc, hc', fog_zero, ← hcs0, ← hKd, ← hMd]
    cases h : m.useSo
    · simp; ring
    · simp [GalM.vol]; ring

/-- **C63, galaxies: `sigma_c` (partial)**: right without SO correction or with `alpha_drag = 1`; in general exactly when
the wrongly scaled term vanishes. -/
theorem C63_gal_sigmaC_partial :
    HasDerivAt (fun x => value (galPower (baseOf (E := E) P Dk Dmu) k mu) { m with sigmaC := x })
      (dSigmaC (baseOf (E := E) P Dk Dmu) m k mu) m.sigmaC ↔ sigmaCMissing k mu m = 0 :=
  hasDerivAt_iff_of_exact (gal_sigmaC_exact P Dk Dmu k mu m)

/-- What `dPgal_dsigma_so` has wrong: the factor `alpha_drag**3` of the SO one-halo term. -/
noncomputable def sigmaSoMissing (k mu : ℝ) (m : GalM) : ℝ :=
  if m.useSo then
    (1 - m.fs) ^ 2 * (2 * m.Gc k mu * m.fso * m.fcB * m.NcBs / (m.alphas.perp ^ 2 * m.alphas.par)) *
      m.fog.dsigma (m.kp k mu) (m.mup mu) m.sigmaSo * (m.alphas.drag ^ 3 - 1)
  else 0

theorem gal_sigmaSo_exact :
    HasDerivAt (fun x => value (galPower (baseOf (E := E) P Dk Dmu) k mu) { m with sigmaSo := x })
      (dSigmaSo (baseOf (E := E) P Dk Dmu) m k mu + sigmaSoMissing k mu m) m.sigmaSo := by
  set K := m.kp k mu with hKd
  set M := m.mup mu with hMd
  have hg := m.fog.dsigma_correct K M m.sigmaSo
  refine deriv_of_quad_comp hg
    (m.vol * ((1 - m.fs) ^ 2 * (if m.useSo then ((1 - m.fso) * m.Gc k mu) ^ 2 * ccSum P m K M else m.Gc k mu ^ 2 * ccSum P m K M)
      + 2 * m.fs * (1 - m.fs) * csSum P m K M + m.fs ^ 2 * ssSum P m K M))
    (m.vol * ((1 - m.fs) ^ 2 * (if m.useSo then 2 * m.fso * (1 - m.fso) * m.Gc k mu * ccSum P m K M
      + 2 * m.Gc k mu * m.fso * m.fcB * m.NcBs else 0)))
    (m.vol * (1 - m.fs) ^ 2 * (if m.useSo then m.fso ^ 2 * ccSum P m K M else 0)) ?_ ?_
  · intro y
    rw [value_galPower]
    have hK : GalM.kp { m with sigmaSo := y } k mu = K := rfl
    have hM : GalM.mup { m with sigmaSo := y } mu = M := rfl
    have hv : GalM.vol { m with sigmaSo := y } = m.vol := rfl
    have hc : ccSum P { m with sigmaSo := y } = ccSum P m := rfl
    have hs : ssSum P { m with sigmaSo := y } = ssSum P m := rfl
    have hcs : csSum P { m with sigmaSo := y } = csSum P m := rfl
    simp only [galCore, hK, hM, hv, hcs, ccTotal, hc, hs, ← hKd, ← hMd]
    cases m.useSo <;> simp only [Bool.false_eq_true, if_false, if_true] <;> ring
  · rw [dSigmaSo, Pcc_eq, sigmaSoMissing]
    have hK' : GalM.kp { m with useSo := false, sigmaC := 0 } k mu = K := rfl
    have hM' : GalM.mup { m with useSo := false, sigmaC := 0 } mu = M := rfl
    have hv' : GalM.vol { m with useSo := false, sigmaC := 0 } = m.vol := rfl
    have hc' : ccSum P { m with useSo := false, sigmaC := 0 } = ccSum P m := rfl
    simp only [hK', hM', hv', ccTotal, hc', fog_zero, ← hKd, ← hMd]
    cases h : m.useSo
    · simp
    · simp [GalM.vol]; ring

/-- **C63, galaxies: `sigma_so` (partial)**: right without SO correction or with `alpha_drag = 1`; in general exactly when
the wrongly scaled term vanishes. -/
theorem C63_gal_sigmaSo_partial :
    HasDerivAt (fun x => value (galPower (baseOf (E := E) P Dk Dmu) k mu) { m with sigmaSo := x })
      (dSigmaSo (baseOf (E := E) P Dk Dmu) m k mu) m.sigmaSo ↔ sigmaSoMissing k mu m = 0 :=
  hasDerivAt_iff_of_exact (gal_sigmaSo_exact P Dk Dmu k mu m)

/-! ### The dilation parameters -/

section pureDeriv

variable (k mu : ℝ)

/-- The coordinate derivatives of the sums; `D` is one of the two derivatives of the kernel and `Q` the same derivative of `P`. -/
noncomputable def ccSumD (D : Fog → ℝ → ℝ → ℝ → ℝ) (P Q : ℝ → ℝ → ℝ → ℝ → ℝ) (m : GalM) (k mu : ℝ) : ℝ :=
  if m.useSo then
    ((1 - m.fso) * m.fog.G k mu m.sigmaC + m.fso * m.fog.G k mu m.sigmaSo) ^ 2 * ccSum Q m k mu
      + 2 * ((1 - m.fso) * m.fog.G k mu m.sigmaC + m.fso * m.fog.G k mu m.sigmaSo) *
        ((1 - m.fso) * D m.fog k mu m.sigmaC + m.fso * D m.fog k mu m.sigmaSo) * (ccSum P m k mu + m.N)
      + 2 * m.fso * m.fcB * m.NcBs * (D m.fog k mu m.sigmaC * m.fog.G k mu m.sigmaSo + D m.fog k mu m.sigmaSo * m.fog.G k mu m.sigmaC)
  else m.fog.G k mu m.sigmaC ^ 2 * ccSum Q m k mu + 2 * m.fog.G k mu m.sigmaC * D m.fog k mu m.sigmaC * ccSum P m k mu

noncomputable def pairD (D : Fog → ℝ → ℝ → ℝ → ℝ) (m : GalM) (k mu s s' p q : ℝ) : ℝ :=
  m.fog.G k mu s * m.fog.G k mu s' * q + (m.fog.G k mu s' * D m.fog k mu s + m.fog.G k mu s * D m.fog k mu s') * p

noncomputable def csSumD (D : Fog → ℝ → ℝ → ℝ → ℝ) (P Q : ℝ → ℝ → ℝ → ℝ → ℝ) (m : GalM) (k mu : ℝ) : ℝ :=
  (1 - m.fcB) * (1 - m.fsB) * pairD D m k mu m.sigmaC m.sigmaSA (P m.b1cA m.b1sA k mu) (Q m.b1cA m.b1sA k mu)
  + (1 - m.fcB) * m.fsB * pairD D m k mu m.sigmaC m.sigmaSB (P m.b1cA m.b1sB k mu) (Q m.b1cA m.b1sB k mu)
  + m.fcB * (1 - m.fsB) * pairD D m k mu m.sigmaC m.sigmaSA (P m.b1cB m.b1sA k mu + m.NcBs) (Q m.b1cB m.b1sA k mu)
  + m.fcB * m.fsB * pairD D m k mu m.sigmaC m.sigmaSB (P m.b1cB m.b1sB k mu + m.NcBs) (Q m.b1cB m.b1sB k mu)

noncomputable def ssSumD (D : Fog → ℝ → ℝ → ℝ → ℝ) (P Q : ℝ → ℝ → ℝ → ℝ → ℝ) (m : GalM) (k mu : ℝ) : ℝ :=
  (1 - m.fsB) ^ 2 * pairD D m k mu m.sigmaSA m.sigmaSA (P m.b1sA m.b1sA k mu) (Q m.b1sA m.b1sA k mu)
  + 2 * (1 - m.fsB) * m.fsB * pairD D m k mu m.sigmaSA m.sigmaSB (P m.b1sA m.b1sB k mu) (Q m.b1sA m.b1sB k mu)
  + m.fsB ^ 2 * pairD D m k mu m.sigmaSB m.sigmaSB (P m.b1sB m.b1sB k mu + m.NsBsB) (Q m.b1sB m.b1sB k mu)

noncomputable def galCoreD (D : Fog → ℝ → ℝ → ℝ → ℝ) (P Q : ℝ → ℝ → ℝ → ℝ → ℝ) (m : GalM) (k mu : ℝ) : ℝ :=
  (1 - m.fs) ^ 2 * ccSumD D P Q m k mu + 2 * m.fs * (1 - m.fs) * csSumD D P Q m k mu + m.fs ^ 2 * ssSumD D P Q m k mu

theorem fog_dk_zero (g : Fog) : g.dk k mu 0 = 0 := by simp [Fog.dk]
theorem fog_dmu_zero (g : Fog) : g.dmu k mu 0 = 0 := by simp [Fog.dmu]

theorem gcc_dk : (gcc (baseOf (E := E) P Dk Dmu)).dk k mu = pureEv (fun m =>
    if m.useSo then ccSum Dk m k mu
    else m.fog.G k mu m.sigmaC ^ 2 * ccSum Dk m k mu + 2 * m.fog.G k mu m.sigmaC * m.fog.dk k mu m.sigmaC * ccSum P m k mu) := by
  funext m
  have hd := fun (c n1 : GalM → ℝ) n2 (s1 : GalM → ℝ) s2 => (damped1_d (E := E) P Dk Dmu k mu c n1 n2 s1 s2).1
  simp only [gcc, group, List.map, tcAcA, tcAcB, tcBcB, soTerm, hd, withSO_pure, sumTerms_cons, sumTerms_nil, pureEv]
  simp only [damped, ccSum]
  cases h : m.useSo
  · simp; ring
  · simp [fog_zero, fog_dk_zero]

theorem gcc_dmu : (gcc (baseOf (E := E) P Dk Dmu)).dmu k mu = pureEv (fun m =>
    if m.useSo then ccSum Dmu m k mu
    else m.fog.G k mu m.sigmaC ^ 2 * ccSum Dmu m k mu + 2 * m.fog.G k mu m.sigmaC * m.fog.dmu k mu m.sigmaC * ccSum P m k mu) := by
  funext m
  have hd := fun (c n1 : GalM → ℝ) n2 (s1 : GalM → ℝ) s2 => (damped1_d (E := E) P Dk Dmu k mu c n1 n2 s1 s2).2
  simp only [gcc, group, List.map, tcAcA, tcAcB, tcBcB, soTerm, hd, withSO_pure, sumTerms_cons, sumTerms_nil, pureEv]
  simp only [damped, ccSum]
  cases h : m.useSo
  · simp; ring
  · simp [fog_zero, fog_dmu_zero]

theorem tcc_dk : (tcc (baseOf (E := E) P Dk Dmu)).dk k mu = pureEv (fun m => ccSumD Fog.dk P Dk m k mu) := by
  funext m
  simp only [tcc, ccDeriv, gcc_call, gcc_dk, pureEv, ccSumD]
  cases h : m.useSo
  · simp
  · simp [ccG, h]; ring

theorem tcc_dmu : (tcc (baseOf (E := E) P Dk Dmu)).dmu k mu = pureEv (fun m => ccSumD Fog.dmu P Dmu m k mu) := by
  funext m
  simp only [tcc, ccDeriv, gcc_call, gcc_dmu, pureEv, ccSumD]
  cases h : m.useSo
  · simp
  · simp [ccG, h]; ring

theorem tcs_dk : (tcs (baseOf (E := E) P Dk Dmu)).dk k mu = pureEv (fun m => csSumD Fog.dk P Dk m k mu) := by
  funext m
  have hd := fun (c n1 : GalM → ℝ) n2 (s1 : GalM → ℝ) s2 => (damped1_d (E := E) P Dk Dmu k mu c n1 n2 s1 s2).1
  have hd2 := fun (c n1 : GalM → ℝ) n2 (o s1 : GalM → ℝ) s2 => (damped2_d (E := E) P Dk Dmu k mu c n1 n2 o s1 s2).1
  simp only [tcs, zeroNoise, group, List.map, tcAsA, tcAsB, tcBsA, tcBsB, hd, hd2, sumTerms_cons, sumTerms_nil, pureEv]
  simp only [damped, csSumD, pairD, Option.getD]
  congr 2
  ring

theorem tcs_dmu : (tcs (baseOf (E := E) P Dk Dmu)).dmu k mu = pureEv (fun m => csSumD Fog.dmu P Dmu m k mu) := by
  funext m
  have hd := fun (c n1 : GalM → ℝ) n2 (s1 : GalM → ℝ) s2 => (damped1_d (E := E) P Dk Dmu k mu c n1 n2 s1 s2).2
  have hd2 := fun (c n1 : GalM → ℝ) n2 (o s1 : GalM → ℝ) s2 => (damped2_d (E := E) P Dk Dmu k mu c n1 n2 o s1 s2).2
  simp only [tcs, zeroNoise, group, List.map, tcAsA, tcAsB, tcBsA, tcBsB, hd, hd2, sumTerms_cons, sumTerms_nil, pureEv]
  simp only [damped, csSumD, pairD, Option.getD]
  congr 2
  ring

theorem tss_dk : (tss (baseOf (E := E) P Dk Dmu)).dk k mu = pureEv (fun m => ssSumD Fog.dk P Dk m k mu) := by
  funext m
  have hd := fun (c n1 : GalM → ℝ) n2 (s1 : GalM → ℝ) s2 => (damped1_d (E := E) P Dk Dmu k mu c n1 n2 s1 s2).1
  have hd2 := fun (c n1 : GalM → ℝ) n2 (o s1 : GalM → ℝ) s2 => (damped2_d (E := E) P Dk Dmu k mu c n1 n2 o s1 s2).1
  simp only [tss, zeroNoise, group, List.map, tsAsA, tsAsB, tsBsB, hd, hd2, sumTerms_cons, sumTerms_nil, pureEv]
  simp only [damped, ssSumD, pairD, Option.getD]
  congr 2
  ring

theorem tss_dmu : (tss (baseOf (E := E) P Dk Dmu)).dmu k mu = pureEv (fun m => ssSumD Fog.dmu P Dmu m k mu) := by
  funext m
  have hd := fun (c n1 : GalM → ℝ) n2 (s1 : GalM → ℝ) s2 => (damped1_d (E := E) P Dk Dmu k mu c n1 n2 s1 s2).2
  have hd2 := fun (c n1 : GalM → ℝ) n2 (o s1 : GalM → ℝ) s2 => (damped2_d (E := E) P Dk Dmu k mu c n1 n2 o s1 s2).2
  simp only [tss, zeroNoise, group, List.map, tsAsA, tsAsB, tsBsB, hd, hd2, sumTerms_cons, sumTerms_nil, pureEv]
  simp only [damped, ssSumD, pairD, Option.getD]
  congr 2
  ring

theorem tgal_dk : (tgal (baseOf (E := E) P Dk Dmu)).dk k mu = pureEv (fun m => galCoreD Fog.dk P Dk m k mu) := by
  funext m
  simp only [tgal, zeroNoise]
  simp only [group, List.map, tcc_dk, tcs_dk, tss_dk, sumTerms_cons, sumTerms_nil, pureEv]
  simp only [tcc, tcs, tss, zeroNoise, group, galCoreD]
  congr 2
  ring

theorem tgal_dmu : (tgal (baseOf (E := E) P Dk Dmu)).dmu k mu = pureEv (fun m => galCoreD Fog.dmu P Dmu m k mu) := by
  funext m
  simp only [tgal, zeroNoise]
  simp only [group, List.map, tcc_dmu, tcs_dmu, tss_dmu, sumTerms_cons, sumTerms_nil, pureEv]
  simp only [tcc, tcs, tss, zeroNoise, group, galCoreD]
  congr 2
  ring

/-- The shot noise enters the coordinate derivatives wrongly, with the SO correction. -/
noncomputable def noiseD (D : Fog → ℝ → ℝ → ℝ → ℝ) (m : GalM) (k mu : ℝ) : ℝ :=
  if m.useSo then
    (1 - m.fs) ^ 2 * (2 * ((1 - m.fso) * m.fog.G k mu m.sigmaC + m.fso * m.fog.G k mu m.sigmaSo) *
        ((1 - m.fso) * D m.fog k mu m.sigmaC + m.fso * D m.fog k mu m.sigmaSo)) * m.N
  else 0

/-- The coordinate derivatives are right up to that. -/
theorem gal_grad (hP : ∀ b b', GradAt (P b b') (Dk b b' k mu) (Dmu b b' k mu) k mu) :
    GradAt (galCore P m) (galCoreD Fog.dk P Dk m k mu - noiseD Fog.dk m k mu) (galCoreD Fog.dmu P Dmu m k mu - noiseD Fog.dmu m k mu) k mu := by
  have hG := fun s => GradAt.fog m.fog s k mu
  have hcc : GradAt (ccSum P m) (ccSum Dk m k mu) (ccSum Dmu m k mu) k mu :=
    ((((hP m.b1cA m.b1cA).const_mul ((1 - m.fcB) ^ 2)).add ((hP m.b1cA m.b1cB).const_mul (2 * (1 - m.fcB) * m.fcB))).add
      ((hP m.b1cB m.b1cB).const_mul (m.fcB ^ 2)))
  have hpair : ∀ (s s' w n b b' : ℝ), GradAt (fun k mu => w * (m.fog.G k mu s * m.fog.G k mu s' * (P b b' k mu + n)))
      (w * pairD Fog.dk m k mu s s' (P b b' k mu + n) (Dk b b' k mu)) (w * pairD Fog.dmu m k mu s s' (P b b' k mu + n) (Dmu b b' k mu)) k mu := by
    intro s s' w n b b'
    refine ((((hG s).mul (hG s')).mul ((hP b b').add (GradAt.const n k mu))).const_mul w).congr ?_ ?_
    · simp only [pairD]; ring
    · simp only [pairD]; ring
  have hcs : GradAt (csSum P m) (csSumD Fog.dk P Dk m k mu) (csSumD Fog.dmu P Dmu m k mu) k mu := by
    have := (((hpair m.sigmaC m.sigmaSA ((1 - m.fcB) * (1 - m.fsB)) 0 m.b1cA m.b1sA).add
      (hpair m.sigmaC m.sigmaSB ((1 - m.fcB) * m.fsB) 0 m.b1cA m.b1sB)).add
      (hpair m.sigmaC m.sigmaSA (m.fcB * (1 - m.fsB)) m.NcBs m.b1cB m.b1sA)).add
      (hpair m.sigmaC m.sigmaSB (m.fcB * m.fsB) m.NcBs m.b1cB m.b1sB)
    simp only [add_zero] at this
    exact this
  have hss : GradAt (ssSum P m) (ssSumD Fog.dk P Dk m k mu) (ssSumD Fog.dmu P Dmu m k mu) k mu := by
    have := ((hpair m.sigmaSA m.sigmaSA ((1 - m.fsB) ^ 2) 0 m.b1sA m.b1sA).add
      (hpair m.sigmaSA m.sigmaSB (2 * (1 - m.fsB) * m.fsB) 0 m.b1sA m.b1sB)).add
      (hpair m.sigmaSB m.sigmaSB (m.fsB ^ 2) m.NsBsB m.b1sB m.b1sB)
    simp only [add_zero] at this
    exact this
  have hcct : GradAt (ccTotal P m)
      (ccSumD Fog.dk P Dk m k mu - if m.useSo then 2 * ((1 - m.fso) * m.fog.G k mu m.sigmaC + m.fso * m.fog.G k mu m.sigmaSo) *
        ((1 - m.fso) * m.fog.dk k mu m.sigmaC + m.fso * m.fog.dk k mu m.sigmaSo) * m.N else 0)
      (ccSumD Fog.dmu P Dmu m k mu - if m.useSo then 2 * ((1 - m.fso) * m.fog.G k mu m.sigmaC + m.fso * m.fog.G k mu m.sigmaSo) *
        ((1 - m.fso) * m.fog.dmu k mu m.sigmaC + m.fso * m.fog.dmu k mu m.sigmaSo) * m.N else 0) k mu := by
    cases h : m.useSo
    · have : ccTotal P m = fun k mu => m.fog.G k mu m.sigmaC * m.fog.G k mu m.sigmaC * ccSum P m k mu := by
        funext k mu
        simp [ccTotal, h, pow_two]
      rw [this]
      refine (((hG m.sigmaC).mul (hG m.sigmaC)).mul hcc).congr ?_ ?_
      · simp [ccSumD, h]; ring
      · simp [ccSumD, h]; ring
    · have : ccTotal P m = fun k mu => (((1 - m.fso) * m.fog.G k mu m.sigmaC + m.fso * m.fog.G k mu m.sigmaSo) *
          ((1 - m.fso) * m.fog.G k mu m.sigmaC + m.fso * m.fog.G k mu m.sigmaSo)) * ccSum P m k mu
          + (2 * m.fso * m.fcB * m.NcBs) * (m.fog.G k mu m.sigmaC * m.fog.G k mu m.sigmaSo) := by
        funext k mu
        simp [ccTotal, h]; ring
      rw [this]
      have hmix := ((hG m.sigmaC).const_mul (1 - m.fso)).add ((hG m.sigmaSo).const_mul m.fso)
      refine (((hmix.mul hmix).mul hcc).add (((hG m.sigmaC).mul (hG m.sigmaSo)).const_mul (2 * m.fso * m.fcB * m.NcBs))).congr ?_ ?_
      · simp [ccSumD, h]; ring
      · simp [ccSumD, h]; ring
  refine (((hcct.const_mul ((1 - m.fs) ^ 2)).add (hcs.const_mul (2 * m.fs * (1 - m.fs)))).add (hss.const_mul (m.fs ^ 2))).congr ?_ ?_
  · simp only [galCoreD, noiseD]; split <;> ring
  · simp only [galCoreD, noiseD]; split <;> ring

end pureDeriv

theorem value_galDk : value (galDk (baseOf (E := E) P Dk Dmu) k mu) m = m.vol * galCoreD Fog.dk P Dk m (m.kp k mu) (m.mup mu) := by
  rw [galDk, decorated_pure k mu _ (fun m k mu => galCoreD Fog.dk P Dk m k mu) (fun k mu => tgal_dk P Dk Dmu k mu), value_pure, rescale_eq]

theorem value_galDmu : value (galDmu (baseOf (E := E) P Dk Dmu) k mu) m = m.vol * galCoreD Fog.dmu P Dmu m (m.kp k mu) (m.mup mu) := by
  rw [galDmu, decorated_pure k mu _ (fun m k mu => galCoreD Fog.dmu P Dmu m k mu) (fun k mu => tgal_dmu P Dk Dmu k mu), value_pure, rescale_eq]

/-- The base spectrum is differentiable at the true coordinates and the base class reports its partial derivatives (for the base classes of
the code this is `GradAt.muSum`). -/
def BaseSmooth (P Dk Dmu : ℝ → ℝ → ℝ → ℝ → ℝ) (k mu : ℝ) : Prop := ∀ b b', GradAt (P b b') (Dk b b' k mu) (Dmu b b' k mu) k mu

theorem gal_alphaPar_exact (hP : BaseSmooth P Dk Dmu (m.kp k mu) (m.mup mu)) (h1 : -1 ≤ mu) (h2 : mu ≤ 1) (hr : 0 < m.alphas.par)
    (hp : 0 < m.alphas.perp) :
    HasDerivAt (fun x => value (galPower (baseOf (E := E) P Dk Dmu) k mu) { m with alphas := { m.alphas with par := x } })
      (dAlphaPar (baseOf (E := E) P Dk Dmu) m k mu + -(m.vol * (noiseD Fog.dk m (m.kp k mu) (m.mup mu) * dkDpar m.alphas k mu +
        noiseD Fog.dmu m (m.kp k mu) (m.mup mu) * dmuDpar m.alphas mu))) m.alphas.par := by
  have hg := gal_grad P Dk Dmu m (m.kp k mu) (m.mup mu) hP
  have := alphaPar_correct m.alphas (galCore P m)
    (fun k mu => galCoreD Fog.dk P Dk m k mu - noiseD Fog.dk m k mu) (fun k mu => galCoreD Fog.dmu P Dmu m k mu - noiseD Fog.dmu m k mu)
    k mu h1 h2 hr hp hg
  refine (this.congr_deriv ?_).congr_of_eventuallyEq (Filter.Eventually.of_forall fun x => ?_)
  · rw [dAlphaPar, value_galPower, value_galDk, value_galDmu]
    simp only [alphaParEval, distorted, rescale_eq m, GalM.kp, GalM.mup]
    ring
  · simp only []
    rw [value_galPower]
    have h : galCore P { m with alphas := { m.alphas with par := x } } = galCore P m := rfl
    rw [h]
    simp only [distorted, rescale, GalM.vol, GalM.kp, GalM.mup]
    ring

theorem gal_alphaPerp_exact (hP : BaseSmooth P Dk Dmu (m.kp k mu) (m.mup mu)) (h1 : -1 ≤ mu) (h2 : mu ≤ 1) (hr : 0 < m.alphas.par)
    (hp : 0 < m.alphas.perp) :
    HasDerivAt (fun x => value (galPower (baseOf (E := E) P Dk Dmu) k mu) { m with alphas := { m.alphas with perp := x } })
      (dAlphaPerp (baseOf (E := E) P Dk Dmu) m k mu + -(m.vol * (noiseD Fog.dk m (m.kp k mu) (m.mup mu) * dkDperp m.alphas k mu +
        noiseD Fog.dmu m (m.kp k mu) (m.mup mu) * dmuDperp m.alphas mu))) m.alphas.perp := by
  have hg := gal_grad P Dk Dmu m (m.kp k mu) (m.mup mu) hP
  have := alphaPerp_correct m.alphas (galCore P m)
    (fun k mu => galCoreD Fog.dk P Dk m k mu - noiseD Fog.dk m k mu) (fun k mu => galCoreD Fog.dmu P Dmu m k mu - noiseD Fog.dmu m k mu)
    k mu h1 h2 hr hp hg
  refine (this.congr_deriv ?_).congr_of_eventuallyEq (Filter.Eventually.of_forall fun x => ?_)
  · rw [dAlphaPerp, value_galPower, value_galDk, value_galDmu]
    simp only [alphaPerpEval, distorted, rescale_eq m, GalM.kp, GalM.mup]
    ring
  · simp only []
    rw [value_galPower]
    have h : galCore P { m with alphas := { m.alphas with perp := x } } = galCore P m := rfl
    rw [h]
    simp only [distorted, rescale, GalM.vol, GalM.kp, GalM.mup]
    ring

/-- **C63, galaxies: `alpha_par` (partial)**: right exactly when the spurious contribution of `N` vanishes, in particular without SO
correction or with `N = 0`. -/
theorem C63_gal_alpha_par_partial (hP : BaseSmooth P Dk Dmu (m.kp k mu) (m.mup mu)) (h1 : -1 ≤ mu) (h2 : mu ≤ 1) (hr : 0 < m.alphas.par)
    (hp : 0 < m.alphas.perp) :
    HasDerivAt (fun x => value (galPower (baseOf (E := E) P Dk Dmu) k mu) { m with alphas := { m.alphas with par := x } })
      (dAlphaPar (baseOf (E := E) P Dk Dmu) m k mu) m.alphas.par ↔
    m.vol * (noiseD Fog.dk m (m.kp k mu) (m.mup mu) * dkDpar m.alphas k mu + noiseD Fog.dmu m (m.kp k mu) (m.mup mu) * dmuDpar m.alphas mu) = 0 := by
  rw [hasDerivAt_iff_of_exact (gal_alphaPar_exact P Dk Dmu k mu m hP h1 h2 hr hp), neg_eq_zero]

/-- **C63, galaxies: `alpha_perp` (partial)**: as for `alpha_par`. -/
theorem C63_gal_alpha_perp_partial (hP : BaseSmooth P Dk Dmu (m.kp k mu) (m.mup mu)) (h1 : -1 ≤ mu) (h2 : mu ≤ 1) (hr : 0 < m.alphas.par)
    (hp : 0 < m.alphas.perp) :
    HasDerivAt (fun x => value (galPower (baseOf (E := E) P Dk Dmu) k mu) { m with alphas := { m.alphas with perp := x } })
      (dAlphaPerp (baseOf (E := E) P Dk Dmu) m k mu) m.alphas.perp ↔
    m.vol * (noiseD Fog.dk m (m.kp k mu) (m.mup mu) * dkDperp m.alphas k mu + noiseD Fog.dmu m (m.kp k mu) (m.mup mu) * dmuDperp m.alphas mu) = 0 := by
  rw [hasDerivAt_iff_of_exact (gal_alphaPerp_exact P Dk Dmu k mu m hP h1 h2 hr hp), neg_eq_zero]

/-! ### The configuration in which every registered derivative but `fsB` is right -/

/-- **C63, galaxies.** With `N = 0` and `alpha_drag = 1` (the shipped defaults), with or without SO correction, all analytic derivatives
except that of `fsB` are the partial derivatives of the power. -/
theorem C63_gal_default (hN : m.N = 0) (hd : m.alphas.drag = 1) (hP : BaseSmooth P Dk Dmu (m.kp k mu) (m.mup mu)) (h1 : -1 ≤ mu) (h2 : mu ≤ 1)
    (hr : 0 < m.alphas.par) (hp : 0 < m.alphas.perp) :
    let f := fun m => value (galPower (baseOf (E := E) P Dk Dmu) k mu) m
    let base : BaseOps E := baseOf P Dk Dmu
    HasDerivAt (fun x => f { m with fs := x }) (dFs base m k mu) m.fs ∧
    HasDerivAt (fun x => f { m with fcB := x }) (dFcB base m k mu) m.fcB ∧
    HasDerivAt (fun x => f { m with NcBs := x }) (dNcBs m k mu) m.NcBs ∧
    HasDerivAt (fun x => f { m with NsBsB := x }) (dNsBsB m k mu) m.NsBsB ∧
    HasDerivAt (fun x => f { m with fso := x }) (dFso base m k mu) m.fso ∧
    HasDerivAt (fun x => f { m with sigmaC := x }) (dSigmaC base m k mu) m.sigmaC ∧
    HasDerivAt (fun x => f { m with sigmaSo := x }) (dSigmaSo base m k mu) m.sigmaSo ∧
    HasDerivAt (fun x => f { m with alphas := { m.alphas with par := x } }) (dAlphaPar base m k mu) m.alphas.par ∧
    HasDerivAt (fun x => f { m with alphas := { m.alphas with perp := x } }) (dAlphaPerp base m k mu) m.alphas.perp := by
  refine ⟨C63_gal_fs _ _ _ _ _ _, (C63_gal_fcB_partial _ _ _ _ _ _).2 ?_, (C63_gal_NcBs_partial _ _ _ _ _ _).2 ?_,
    (C63_gal_NsBsB_partial _ _ _ _ _ _).2 ?_, (C63_gal_fso_partial _ _ _ _ _ _).2 ?_, (C63_gal_sigmaC_partial _ _ _ _ _ _).2 ?_,
    (C63_gal_sigmaSo_partial _ _ _ _ _ _).2 ?_, (C63_gal_alpha_par_partial _ _ _ _ _ _ hP h1 h2 hr hp).2 ?_,
    (C63_gal_alpha_perp_partial _ _ _ _ _ _ hP h1 h2 hr hp).2 ?_⟩
  · simp [fcBMissing, hd]
  · simp [hd]
  · simp [hd]
  · simp [fsoMissing, hd, hN]
  · simp [sigmaCMissing, hd]
  · simp [sigmaSoMissing, hd]
  · simp [noiseD, hN]
  · simp [noiseD, hN]

/-- The hypotheses are met, e.g. by a base spectrum polynomial in `mu` with smooth coefficients. -/
example : BaseSmooth (fun b b' => muSum 2 (fun i k => (b * b' + i) * k ^ 2)) (fun b b' => muSumDk 2 (fun i k => (b * b' + i) * k ^ 2))
    (fun b b' => muSumDmu 2 (fun i k => (b * b' + i) * k ^ 2)) (galExample.kp 0.2 0.5) (galExample.mup 0.5) ∧
    0 < galExample.alphas.par ∧ 0 < galExample.alphas.perp := by
  refine ⟨fun b b' => GradAt.muSum _ _ _ _ (fun i _ => ?_), ?_, ?_⟩
  · exact (differentiableAt_fun_id (𝕜 := ℝ).pow 2).const_mul _
  · simp only [galExample]; norm_num
  · simp only [galExample]; norm_num

/-! ### Counterexamples: none of these derivatives is right in general -/

/-- The example with `alpha_drag = 1` and no dilation, no SO correction. -/
noncomputable def galPlain : GalM := { galExample with alphas := ⟨1, 1, 1⟩, useSo := false, N := 0 }

/-- **C63, galaxies: `fsB` (counterexample)**: with two kinds of satellites of different dispersion, even at the defaults. -/
theorem C63_gal_fsB_counterexample :
    ¬ HasDerivAt (fun x => value (galPower (baseOf (E := E) (fun _ _ _ _ => 0) (fun _ _ _ _ => 0) (fun _ _ _ _ => 0)) 0.2 0.5) { galPlain with fsB := x })
      (dFsB (baseOf (E := E) (fun _ _ _ _ => 0) (fun _ _ _ _ => 0) (fun _ _ _ _ => 0)) galPlain 0.2 0.5) galPlain.fsB := by
  rw [C63_gal_fsB_partial]
  simp only [fsBMissing, galPlain, galExample, GalM.vol, GalM.Gc, GalM.GsA, GalM.GsB, GalM.kp, GalM.mup, kAP, muAP, Fog.G, Fog.kernel]
  norm_num

/-- **C63, galaxies (counterexample)**: with `alpha_drag = 1.1` and the SO correction, the derivatives with respect to `fcB`, `NcBs`, `NsBsB`,
`f_so` are wrong. -/
theorem C63_gal_drag_counterexample :
    let m : GalM := { galExample with alphas := ⟨1, 1, 1.1⟩, N := 0 }
    let base : BaseOps E := baseOf (fun _ _ _ _ => 0) (fun _ _ _ _ => 0) (fun _ _ _ _ => 0)
    ¬ HasDerivAt (fun x => value (galPower base 0.2 0.5) { m with fcB := x }) (dFcB base m 0.2 0.5) m.fcB ∧
    ¬ HasDerivAt (fun x => value (galPower base 0.2 0.5) { m with NcBs := x }) (dNcBs m 0.2 0.5) m.NcBs ∧
    ¬ HasDerivAt (fun x => value (galPower base 0.2 0.5) { m with NsBsB := x }) (dNsBsB m 0.2 0.5) m.NsBsB ∧
    ¬ HasDerivAt (fun x => value (galPower base 0.2 0.5) { m with fso := x }) (dFso base m 0.2 0.5) m.fso ∧
    ¬ HasDerivAt (fun x => value (galPower base 0.2 0.5) { m with sigmaC := x }) (dSigmaC base m 0.2 0.5) m.sigmaC ∧
    ¬ HasDerivAt (fun x => value (galPower base 0.2 0.5) { m with sigmaSo := x }) (dSigmaSo base m 0.2 0.5) m.sigmaSo := by
  intro m base
  refine ⟨?_, ?_, ?_, ?_, ?_, ?_⟩
  · rw [C63_gal_fcB_partial]
    simp only [m, fcBMissing, galExample, GalM.Gc, GalM.Gso, GalM.kp, GalM.mup, kAP, muAP, Fog.G, Fog.kernel]
    norm_num
  · rw [C63_gal_NcBs_partial]
    simp only [m, dNcBs, galExample, GalM.kp, GalM.mup, kAP, muAP, Fog.G, Fog.kernel]
    norm_num
  · rw [C63_gal_NsBsB_partial]
    simp only [m, dNsBsB, galExample, GalM.kp, GalM.mup, kAP, muAP, Fog.G, Fog.kernel]
    norm_num
  · rw [C63_gal_fso_partial]
    simp only [m, fsoMissing, galExample, GalM.Gc, GalM.Gso, GalM.kp, GalM.mup, kAP, muAP, Fog.G, Fog.kernel]
    norm_num
  · rw [C63_gal_sigmaC_partial]
    simp only [m, sigmaCMissing, galExample, GalM.Gso, GalM.kp, GalM.mup, kAP, muAP, Fog.G, Fog.kernel, Fog.dsigma, Fog.derivative]
    norm_num
  · rw [C63_gal_sigmaSo_partial]
    simp only [m, sigmaSoMissing, galExample, GalM.Gc, GalM.kp, GalM.mup, kAP, muAP, Fog.G, Fog.kernel, Fog.dsigma, Fog.derivative]
    norm_num

/-- **C63, galaxies (counterexample)**: with `N = 100` and the SO correction, the derivative with respect to `alpha_par` is wrong. -/
theorem C63_gal_noise_counterexample :
    let m : GalM := { galExample with alphas := ⟨1, 1, 1⟩ }
    let base : BaseOps E := baseOf (fun _ _ _ _ => 0) (fun _ _ _ _ => 0) (fun _ _ _ _ => 0)
    ¬ HasDerivAt (fun x => value (galPower base 0.2 0.5) { m with alphas := { m.alphas with par := x } }) (dAlphaPar base m 0.2 0.5) m.alphas.par := by
  intro m base
  rw [C63_gal_alpha_par_partial]
  · simp only [m, noiseD, galExample, GalM.vol, GalM.kp, GalM.mup, kAP, muAP, Fog.G, Fog.kernel, Fog.dk, Fog.dmu, Fog.derivative, dkDpar, dmuDpar, apN]
    norm_num
  · intro b b'; exact GradAt.const 0 _ _
  · norm_num
  · norm_num
  · simp only [m]; norm_num
  · simp only [m]; norm_num

end Verif.Rsd
