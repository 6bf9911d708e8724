/-
C62 (population-weighted sum), C65 (temporary changes are undone), C66 (shot noise) for the galaxy model.
-/
import Verif.Model.GalDeriv
import Verif.Lemmas.Rsd

namespace Verif.Rsd

open Verif.AP

variable {E : Type}

/-- The base class as total functions. -/
def baseOf (P Dk Dmu : ℝ → ℝ → ℝ → ℝ → ℝ) : BaseOps E where
  power b b' k mu := .ok (P b b' k mu)
  dk b b' k mu := .ok (Dk b b' k mu)
  dmu b b' k mu := .ok (Dmu b b' k mu)

/-! ### Specification: a sum over pairs of populations -/

/-- The four populations: isolated centrals, centrals with satellites, single satellites, multiple satellites. -/
inductive Pop where
  | cA | cB | sA | sB
  deriving DecidableEq

instance : Fintype Pop := ⟨{.cA, .cB, .sA, .sB}, fun x => by cases x <;> simp⟩

/-- The fraction of the galaxies in each population. -/
def Pop.frac (m : GalM) : Pop → ℝ
  | cA => (1 - m.fs) * (1 - m.fcB)
  | cB => (1 - m.fs) * m.fcB
  | sA => m.fs * (1 - m.fsB)
  | sB => m.fs * m.fsB

def Pop.bias (m : GalM) : Pop → ℝ
  | cA => m.b1cA
  | cB => m.b1cB
  | sA => m.b1sA
  | sB => m.b1sB

def Pop.sigma (m : GalM) : Pop → ℝ
  | cA => m.sigmaC
  | cB => m.sigmaC
  | sA => m.sigmaSA
  | sB => m.sigmaSB

def Pop.central : Pop → Bool
  | cA => true
  | cB => true
  | sA => false
  | sB => false

/-- The populations in the order `cA, cB, sA, sB`. -/
def Pop.rank : Pop → ℕ
  | cA => 0
  | cB => 1
  | sA => 2
  | sB => 3

/-- The finger-of-god factor of a pair: the product of the two kernels; for two centrals with the SO correction on, the
kernel of a central is a mixture. -/
noncomputable def pairDamping (m : GalM) (k mu : ℝ) (i j : Pop) : ℝ :=
  if m.useSo ∧ i.central ∧ j.central then
    ((1 - m.fso) * m.fog.G k mu m.sigmaC + m.fso * m.fog.G k mu m.sigmaSo) ^ 2
  else m.fog.G k mu (i.sigma m) * m.fog.G k mu (j.sigma m)

/-- The one-halo amplitude of a pair: centrals and satellites of the same halo, satellites of the same halo. -/
def oneHaloAmp (m : GalM) (i j : Pop) : ℝ :=
  if i = .sB ∧ j = .sB then m.NsBsB
  else if (i = .cB ∧ ¬ j.central) ∨ (j = .cB ∧ ¬ i.central) then m.NcBs
  else 0

/-- The spectrum of a pair, in the true coordinates: damped two-halo plus one-halo. -/
noncomputable def pairPower (P : ℝ → ℝ → ℝ → ℝ → ℝ) (m : GalM) (k mu : ℝ) (i j : Pop) : ℝ :=
  pairDamping m k mu i j *
    ((if i.rank ≤ j.rank then P (i.bias m) (j.bias m) k mu else P (j.bias m) (i.bias m) k mu) + oneHaloAmp m i j)

/-- The one-halo term of the SO correction. -/
noncomputable def soOneHalo (m : GalM) (k mu : ℝ) : ℝ :=
  if m.useSo then
    (1 - m.fs) ^ 2 * (2 * m.fso * m.fcB * m.fog.G k mu m.sigmaC * m.fog.G k mu m.sigmaSo * m.NcBs)
  else 0

/-- The galaxy power in the true coordinates. -/
noncomputable def galSpec (P : ℝ → ℝ → ℝ → ℝ → ℝ) (m : GalM) (k mu : ℝ) : ℝ :=
  (∑ i : Pop, ∑ j : Pop, i.frac m * j.frac m * pairPower P m k mu i j) + soOneHalo m k mu

theorem Pop.sum_eq (f : Pop → ℝ) : ∑ i : Pop, f i = f .cA + f .cB + f .sA + f .sB := by
  have : (Finset.univ : Finset Pop) = {.cA, .cB, .sA, .sB} := rfl
  rw [this]
  simp [Finset.sum_insert]
  ring

/-- The fractions sum to one. -/
theorem Pop.frac_sum (m : GalM) : ∑ i : Pop, i.frac m = 1 := by
  rw [Pop.sum_eq]; simp only [Pop.frac]; ring

/-! ### Evaluation with a total base class -/

/-- An evaluation that returns `v m` and changes nothing. -/
def pureEv (v : GalM → ℝ) : Ev E := fun m => (.ok (v m), m)

theorem value_pure (v : GalM → ℝ) (m : GalM) : value (pureEv (E := E) v) m = v m := rfl

theorem withBiases_pure (n1 : GalM → ℝ) (n2 : Option (GalM → ℝ)) (P : ℝ → ℝ → ℝ) :
    withBiases (E := E) n1 n2 (fun b b' => .ok (P b b')) = pureEv (fun m => P (n1 m) ((n2.getD n1) m)) := by
  funext m
  cases n2 <;> rfl

theorem sumTerms_cons (c v : GalM → ℝ) (ts : List ((GalM → ℝ) × Ev E)) (acc : ℝ) (m : GalM) :
    sumTerms ((c, pureEv v) :: ts) acc m = sumTerms ts (acc + c m * v m) m := rfl

theorem sumTerms_nil (acc : ℝ) (m : GalM) : sumTerms (E := E) [] acc m = (.ok acc, m) := rfl

theorem withSO_pure (v : GalM → ℝ) :
    withSO (pureEv (E := E) v) = pureEv (fun m => v (if m.useSo then { m with sigmaC := 0 } else m)) := by
  funext m
  simp only [withSO, pureEv]
  split <;> rfl

theorem withZeroN_pure (v : GalM → ℝ) : withZeroN (pureEv (E := E) v) = pureEv (fun m => v { m with N := 0 }) := rfl

theorem dampedCall_pure (g : Term E) (s1 : GalM → ℝ) (s2 : Option (GalM → ℝ)) (k mu : ℝ) (v : GalM → ℝ)
    (h : g.call k mu = pureEv v) :
    dampedCall g s1 s2 k mu = pureEv (fun m => m.fog.G k mu (s1 m) * m.fog.G k mu ((s2.getD s1) m) * v m + m.N) := by
  funext m
  simp only [dampedCall, h, pureEv]
  cases s2 <;> rfl

theorem dampedDeriv_pure (g : Term E) (d : ℝ → ℝ → Ev E) (D : Fog → ℝ → ℝ → ℝ → ℝ) (s1 : GalM → ℝ) (s2 : Option (GalM → ℝ)) (k mu : ℝ)
    (v w : GalM → ℝ) (h : g.call k mu = pureEv v) (h' : d k mu = pureEv w) :
    dampedDeriv g d D s1 s2 k mu = pureEv (fun m =>
      m.fog.G k mu (s1 m) * m.fog.G k mu ((s2.getD s1) m) * w m
        + (m.fog.G k mu ((s2.getD s1) m) * D m.fog k mu (s1 m) + m.fog.G k mu (s1 m) * D m.fog k mu ((s2.getD s1) m)) * v m) := by
  funext m
  simp only [dampedDeriv, h, h', pureEv]
  cases s2 <;> rfl

theorem damped_eq (c : GalM → ℝ) (ts : List (Term E)) (s1 : GalM → ℝ) (s2 : Option (GalM → ℝ)) :
    (damped c ts s1 s2).call = dampedCall (group c ts) s1 s2 ∧
    (damped c ts s1 s2).dk = dampedDeriv (group c ts) (group c ts).dk Fog.dk s1 s2 ∧
    (damped c ts s1 s2).dmu = dampedDeriv (group c ts) (group c ts).dmu Fog.dmu s1 s2 := ⟨rfl, rfl, rfl⟩

section pure

variable (P Dk Dmu : ℝ → ℝ → ℝ → ℝ → ℝ) (k mu : ℝ)

theorem twoHalo_call (n1 : GalM → ℝ) (n2 : Option (GalM → ℝ)) :
    (twoHalo (baseOf (E := E) P Dk Dmu) n1 n2).call k mu = pureEv (fun m => P (n1 m) ((n2.getD n1) m) k mu) :=
  withBiases_pure n1 n2 (fun b b' => P b b' k mu)

theorem twoHalo_dk (n1 : GalM → ℝ) (n2 : Option (GalM → ℝ)) :
    (twoHalo (baseOf (E := E) P Dk Dmu) n1 n2).dk k mu = pureEv (fun m => Dk (n1 m) ((n2.getD n1) m) k mu) :=
  withBiases_pure n1 n2 (fun b b' => Dk b b' k mu)

theorem twoHalo_dmu (n1 : GalM → ℝ) (n2 : Option (GalM → ℝ)) :
    (twoHalo (baseOf (E := E) P Dk Dmu) n1 n2).dmu k mu = pureEv (fun m => Dmu (n1 m) ((n2.getD n1) m) k mu) :=
  withBiases_pure n1 n2 (fun b b' => Dmu b b' k mu)

/-- A damped term with one two-halo term. -/
theorem damped1 (c : GalM → ℝ) (n1 : GalM → ℝ) (n2 : Option (GalM → ℝ)) (s1 : GalM → ℝ) (s2 : Option (GalM → ℝ)) :
    (damped c [twoHalo (baseOf (E := E) P Dk Dmu) n1 n2] s1 s2).call k mu =
      pureEv (fun m => m.fog.G k mu (s1 m) * m.fog.G k mu ((s2.getD s1) m) * P (n1 m) ((n2.getD n1) m) k mu + m.N) := by
  rw [(damped_eq _ _ _ _).1]
  refine dampedCall_pure _ _ _ _ _ (fun m => P (n1 m) ((n2.getD n1) m) k mu) ?_
  funext m
  simp only [group, List.map, twoHalo_call, sumTerms_cons, sumTerms_nil, pureEv]
  simp [twoHalo]

/-- A damped term with a two-halo and a one-halo term. -/
theorem damped2 (c : GalM → ℝ) (n1 : GalM → ℝ) (n2 : Option (GalM → ℝ)) (o : GalM → ℝ) (s1 : GalM → ℝ) (s2 : Option (GalM → ℝ)) :
    (damped c [twoHalo (baseOf (E := E) P Dk Dmu) n1 n2, oneHalo o] s1 s2).call k mu =
      pureEv (fun m => m.fog.G k mu (s1 m) * m.fog.G k mu ((s2.getD s1) m) * (P (n1 m) ((n2.getD n1) m) k mu + o m) + m.N) := by
  rw [(damped_eq _ _ _ _).1]
  refine dampedCall_pure _ _ _ _ _ (fun m => P (n1 m) ((n2.getD n1) m) k mu + o m) ?_
  have ho : (oneHalo (E := E) o).call k mu = pureEv o := rfl
  funext m
  simp only [group, List.map, twoHalo_call, ho, sumTerms_cons, sumTerms_nil, pureEv]
  simp [twoHalo, oneHalo]

theorem damped1_d (c : GalM → ℝ) (n1 : GalM → ℝ) (n2 : Option (GalM → ℝ)) (s1 : GalM → ℝ) (s2 : Option (GalM → ℝ)) :
    (damped c [twoHalo (baseOf (E := E) P Dk Dmu) n1 n2] s1 s2).dk k mu =
      pureEv (fun m => m.fog.G k mu (s1 m) * m.fog.G k mu ((s2.getD s1) m) * Dk (n1 m) ((n2.getD n1) m) k mu +
        (m.fog.G k mu ((s2.getD s1) m) * m.fog.dk k mu (s1 m) + m.fog.G k mu (s1 m) * m.fog.dk k mu ((s2.getD s1) m)) *
          P (n1 m) ((n2.getD n1) m) k mu) ∧
    (damped c [twoHalo (baseOf (E := E) P Dk Dmu) n1 n2] s1 s2).dmu k mu =
      pureEv (fun m => m.fog.G k mu (s1 m) * m.fog.G k mu ((s2.getD s1) m) * Dmu (n1 m) ((n2.getD n1) m) k mu +
        (m.fog.G k mu ((s2.getD s1) m) * m.fog.dmu k mu (s1 m) + m.fog.G k mu (s1 m) * m.fog.dmu k mu ((s2.getD s1) m)) *
          P (n1 m) ((n2.getD n1) m) k mu) := by
  constructor
  · rw [(damped_eq _ _ _ _).2.1]
    refine dampedDeriv_pure _ _ _ _ _ _ _ (fun m => P (n1 m) ((n2.getD n1) m) k mu) (fun m => Dk (n1 m) ((n2.getD n1) m) k mu) ?_ ?_
    all_goals
      funext m
      simp only [group, List.map, twoHalo_call, twoHalo_dk, sumTerms_cons, sumTerms_nil, pureEv]
      simp [twoHalo]
  · rw [(damped_eq _ _ _ _).2.2]
    refine dampedDeriv_pure _ _ _ _ _ _ _ (fun m => P (n1 m) ((n2.getD n1) m) k mu) (fun m => Dmu (n1 m) ((n2.getD n1) m) k mu) ?_ ?_
    all_goals
      funext m
      simp only [group, List.map, twoHalo_call, twoHalo_dmu, sumTerms_cons, sumTerms_nil, pureEv]
      simp [twoHalo]

theorem damped2_d (c : GalM → ℝ) (n1 : GalM → ℝ) (n2 : Option (GalM → ℝ)) (o : GalM → ℝ) (s1 : GalM → ℝ) (s2 : Option (GalM → ℝ)) :
    (damped c [twoHalo (baseOf (E := E) P Dk Dmu) n1 n2, oneHalo o] s1 s2).dk k mu =
      pureEv (fun m => m.fog.G k mu (s1 m) * m.fog.G k mu ((s2.getD s1) m) * Dk (n1 m) ((n2.getD n1) m) k mu +
        (m.fog.G k mu ((s2.getD s1) m) * m.fog.dk k mu (s1 m) + m.fog.G k mu (s1 m) * m.fog.dk k mu ((s2.getD s1) m)) *
          (P (n1 m) ((n2.getD n1) m) k mu + o m)) ∧
    (damped c [twoHalo (baseOf (E := E) P Dk Dmu) n1 n2, oneHalo o] s1 s2).dmu k mu =
      pureEv (fun m => m.fog.G k mu (s1 m) * m.fog.G k mu ((s2.getD s1) m) * Dmu (n1 m) ((n2.getD n1) m) k mu +
        (m.fog.G k mu ((s2.getD s1) m) * m.fog.dmu k mu (s1 m) + m.fog.G k mu (s1 m) * m.fog.dmu k mu ((s2.getD s1) m)) *
          (P (n1 m) ((n2.getD n1) m) k mu + o m)) := by
  have ho : (oneHalo (E := E) o).call k mu = pureEv o := rfl
  have ho1 : (oneHalo (E := E) o).dk k mu = pureEv (fun _ => 0) := rfl
  have ho2 : (oneHalo (E := E) o).dmu k mu = pureEv (fun _ => 0) := rfl
  constructor
  · rw [(damped_eq _ _ _ _).2.1]
    refine dampedDeriv_pure _ _ _ _ _ _ _ (fun m => P (n1 m) ((n2.getD n1) m) k mu + o m) (fun m => Dk (n1 m) ((n2.getD n1) m) k mu) ?_ ?_
    all_goals
      funext m
      simp only [group, List.map, twoHalo_call, twoHalo_dk, ho, ho1, sumTerms_cons, sumTerms_nil, pureEv]
      simp [twoHalo, oneHalo]
  · rw [(damped_eq _ _ _ _).2.2]
    refine dampedDeriv_pure _ _ _ _ _ _ _ (fun m => P (n1 m) ((n2.getD n1) m) k mu + o m) (fun m => Dmu (n1 m) ((n2.getD n1) m) k mu) ?_ ?_
    all_goals
      funext m
      simp only [group, List.map, twoHalo_call, twoHalo_dmu, ho, ho2, sumTerms_cons, sumTerms_nil, pureEv]
      simp [twoHalo, oneHalo]


/-! The undamped and damped pieces as explicit functions of the state. -/

/-- Sum of the central two-halo spectra without the kernel. -/
noncomputable def ccSum (P : ℝ → ℝ → ℝ → ℝ → ℝ) (m : GalM) (k mu : ℝ) : ℝ :=
  (1 - m.fcB) ^ 2 * P m.b1cA m.b1cA k mu + 2 * (1 - m.fcB) * m.fcB * P m.b1cA m.b1cB k mu + m.fcB ^ 2 * P m.b1cB m.b1cB k mu

noncomputable def csSum (P : ℝ → ℝ → ℝ → ℝ → ℝ) (m : GalM) (k mu : ℝ) : ℝ :=
  (1 - m.fcB) * (1 - m.fsB) * (m.fog.G k mu m.sigmaC * m.fog.G k mu m.sigmaSA * P m.b1cA m.b1sA k mu)
  + (1 - m.fcB) * m.fsB * (m.fog.G k mu m.sigmaC * m.fog.G k mu m.sigmaSB * P m.b1cA m.b1sB k mu)
  + m.fcB * (1 - m.fsB) * (m.fog.G k mu m.sigmaC * m.fog.G k mu m.sigmaSA * (P m.b1cB m.b1sA k mu + m.NcBs))
  + m.fcB * m.fsB * (m.fog.G k mu m.sigmaC * m.fog.G k mu m.sigmaSB * (P m.b1cB m.b1sB k mu + m.NcBs))

noncomputable def ssSum (P : ℝ → ℝ → ℝ → ℝ → ℝ) (m : GalM) (k mu : ℝ) : ℝ :=
  (1 - m.fsB) ^ 2 * (m.fog.G k mu m.sigmaSA * m.fog.G k mu m.sigmaSA * P m.b1sA m.b1sA k mu)
  + 2 * (1 - m.fsB) * m.fsB * (m.fog.G k mu m.sigmaSA * m.fog.G k mu m.sigmaSB * P m.b1sA m.b1sB k mu)
  + m.fsB ^ 2 * (m.fog.G k mu m.sigmaSB * m.fog.G k mu m.sigmaSB * (P m.b1sB m.b1sB k mu + m.NsBsB))

/-- The kernel of a central galaxy pair in force during the evaluation of a central term. -/
noncomputable def ccG (m : GalM) (k mu : ℝ) : ℝ := if m.useSo then 1 else m.fog.G k mu m.sigmaC

theorem fog_zero (g : Fog) : g.G k mu 0 = 1 := by
  cases g <;> simp [Fog.G, Fog.kernel]

/-- The auto spectrum of all centrals. -/
noncomputable def ccTotal (P : ℝ → ℝ → ℝ → ℝ → ℝ) (m : GalM) (k mu : ℝ) : ℝ :=
  if m.useSo then
    ((1 - m.fso) * m.fog.G k mu m.sigmaC + m.fso * m.fog.G k mu m.sigmaSo) ^ 2 * ccSum P m k mu
      + 2 * m.fog.G k mu m.sigmaC * m.fog.G k mu m.sigmaSo * m.fso * m.fcB * m.NcBs
  else m.fog.G k mu m.sigmaC ^ 2 * ccSum P m k mu

theorem tcAcA_call : (tcAcA (baseOf (E := E) P Dk Dmu)).call k mu = pureEv (fun m => ccG m k mu ^ 2 * P m.b1cA m.b1cA k mu + m.N) := by
  rw [tcAcA, soTerm]
  simp only []
  rw [damped1, withSO_pure]
  funext m
  cases h : m.useSo <;> simp [pureEv, ccG, h, fog_zero, pow_two]

theorem tcAcB_call : (tcAcB (baseOf (E := E) P Dk Dmu)).call k mu = pureEv (fun m => ccG m k mu ^ 2 * P m.b1cA m.b1cB k mu + m.N) := by
  rw [tcAcB, soTerm]
  simp only []
  rw [damped1, withSO_pure]
  funext m
  cases h : m.useSo <;> simp [pureEv, ccG, h, fog_zero, pow_two]

theorem tcBcB_call : (tcBcB (baseOf (E := E) P Dk Dmu)).call k mu = pureEv (fun m => ccG m k mu ^ 2 * P m.b1cB m.b1cB k mu + m.N) := by
  rw [tcBcB, soTerm]
  simp only []
  rw [damped1, withSO_pure]
  funext m
  cases h : m.useSo <;> simp [pureEv, ccG, h, fog_zero, pow_two]

theorem gcc_call : (gcc (baseOf (E := E) P Dk Dmu)).call k mu = pureEv (fun m => ccG m k mu ^ 2 * ccSum P m k mu + m.N) := by
  funext m
  simp only [gcc, group, List.map, tcAcA_call, tcAcB_call, tcBcB_call, sumTerms_cons, sumTerms_nil, pureEv]
  simp only [tcAcA, tcAcB, tcBcB, soTerm, damped, ccSum]
  congr 2
  ring

theorem tcc_call : (tcc (baseOf (E := E) P Dk Dmu)).call k mu = pureEv (fun m => ccTotal P m k mu) := by
  funext m
  simp only [tcc, ccCall, gcc_call, withZeroN_pure, pureEv]
  cases h : m.useSo
  · simp [ccTotal, ccG, ccSum, h]
  · simp only [ccTotal, ccG, ccSum, h, Bool.not_true, Bool.false_eq_true, if_true, if_false]
    congr 2
    ring

theorem tcs_call : (tcs (baseOf (E := E) P Dk Dmu)).call k mu = pureEv (fun m => csSum P m k mu) := by
  have : (group (E := E) (fun m => 2 * m.fs * (1 - m.fs)) [tcAsA (baseOf P Dk Dmu), tcAsB (baseOf P Dk Dmu), tcBsA (baseOf P Dk Dmu),
      tcBsB (baseOf P Dk Dmu)]).call k mu = pureEv (fun m => csSum P m k mu + m.N) := by
    funext m
    simp only [group, List.map, tcAsA, tcAsB, tcBsA, tcBsB, damped1, damped2, sumTerms_cons, sumTerms_nil, pureEv]
    simp only [damped, csSum, Option.getD]
    congr 2
    ring
  rw [tcs, zeroNoise]
  simp only []
  rw [this, withZeroN_pure]
  funext m
  simp [pureEv, csSum]

theorem tss_call : (tss (baseOf (E := E) P Dk Dmu)).call k mu = pureEv (fun m => ssSum P m k mu) := by
  have : (group (E := E) (fun m => m.fs ^ 2) [tsAsA (baseOf P Dk Dmu), tsAsB (baseOf P Dk Dmu), tsBsB (baseOf P Dk Dmu)]).call k mu =
      pureEv (fun m => ssSum P m k mu + m.N) := by
    funext m
    simp only [group, List.map, tsAsA, tsAsB, tsBsB, damped1, damped2, sumTerms_cons, sumTerms_nil, pureEv]
    simp only [damped, ssSum, Option.getD]
    congr 2
    ring
  rw [tss, zeroNoise]
  simp only []
  rw [this, withZeroN_pure]
  funext m
  simp [pureEv, ssSum]

/-- The whole power, in the true coordinates, as the code groups it. -/
noncomputable def galCore (P : ℝ → ℝ → ℝ → ℝ → ℝ) (m : GalM) (k mu : ℝ) : ℝ :=
  (1 - m.fs) ^ 2 * ccTotal P m k mu + 2 * m.fs * (1 - m.fs) * csSum P m k mu + m.fs ^ 2 * ssSum P m k mu

theorem tgal_call : (tgal (baseOf (E := E) P Dk Dmu)).call k mu = pureEv (fun m => galCore P m k mu) := by
  have : (group (E := E) (fun _ => 1) [tcc (baseOf P Dk Dmu), tcs (baseOf P Dk Dmu), tss (baseOf P Dk Dmu)]).call k mu =
      pureEv (fun m => galCore P m k mu) := by
    funext m
    simp only [group, List.map, tcc_call, tcs_call, tss_call, sumTerms_cons, sumTerms_nil, pureEv]
    simp only [tcc, tcs, tss, zeroNoise, group, galCore]
    congr 2
    ring
  rw [tgal, zeroNoise]
  simp only []
  rw [this, withZeroN_pure]
  funext m
  simp [pureEv, galCore, ccTotal, csSum, ssSum, ccSum]

/-- The grouping of the code and the sum over pairs of populations agree. -/
theorem galCore_eq_spec (m : GalM) : galCore P m k mu = galSpec P m k mu := by
  simp only [galSpec, Pop.sum_eq, pairPower, pairDamping, oneHaloAmp, Pop.frac, Pop.bias, Pop.sigma, Pop.central, Pop.rank,
    soOneHalo, galCore, ccTotal, csSum, ssSum, ccSum]
  cases m.useSo <;> simp <;> ring

theorem decorated_pure (x : ℝ → ℝ → Ev E) (v : GalM → ℝ → ℝ → ℝ) (h : ∀ k mu, x k mu = pureEv (fun m => v m k mu)) :
    decorated x k mu = pureEv (fun m => rescale m.alphas (v m (m.kp k mu) (m.mup mu))) := by
  funext m
  simp only [decorated, h, pureEv, GalM.kp, GalM.mup]

end pure

/-! ### C62 -/

/-- **C62.** With any base spectrum `P(b, b', k, mu)`, the power of the galaxy model at observed coordinates is the volume factor
times the sum over pairs of populations, weighted by the product of their fractions, of the damped two-halo and one-halo spectra at the
true coordinates; the parameters of the model are afterwards what they were. -/
theorem C62_population_sum (P Dk Dmu : ℝ → ℝ → ℝ → ℝ → ℝ) (k mu : ℝ) (m : GalM) :
    galPower (baseOf (E := E) P Dk Dmu) k mu m =
      (.ok (m.alphas.drag ^ 3 / (m.alphas.perp ^ 2 * m.alphas.par) * galSpec P m (m.kp k mu) (m.mup mu)), m) := by
  rw [galPower, decorated_pure k mu _ (fun m k mu => galCore P m k mu) (fun k mu => tgal_call P Dk Dmu k mu)]
  simp only [pureEv, rescale, galCore_eq_spec]
  congr 2
  ring

/-- **C62, weights.** The weights sum to one. -/
theorem C62_weights (m : GalM) : ∑ i : Pop, ∑ j : Pop, i.frac m * j.frac m = 1 := by
  rw [← Finset.sum_mul_sum, Pop.frac_sum, one_mul]

/-- **C62, fractions.** If the three fractions are in `[0, 1]` so are the weights. -/
theorem C62_fractions (m : GalM) (h1 : 0 ≤ m.fs) (h2 : m.fs ≤ 1) (h3 : 0 ≤ m.fcB) (h4 : m.fcB ≤ 1) (h5 : 0 ≤ m.fsB) (h6 : m.fsB ≤ 1)
    (i : Pop) : 0 ≤ i.frac m ∧ i.frac m ≤ 1 := by
  have hnn : ∀ j : Pop, 0 ≤ j.frac m := by
    intro j
    cases j <;> simp only [Pop.frac] <;> first | nlinarith | positivity
  refine ⟨hnn i, ?_⟩
  have hs := Pop.frac_sum m
  rw [Pop.sum_eq] at hs
  have a := hnn .cA
  have b := hnn .cB
  have c := hnn .sA
  have d := hnn .sB
  cases i <;> linarith

/-- **C62, identical populations.** With equal biases and dispersions, no one-halo terms and no SO correction, the result is the
spectrum of a single population, whatever the fractions. -/
theorem C62_identical (P Dk Dmu : ℝ → ℝ → ℝ → ℝ → ℝ) (k mu : ℝ) (m : GalM) (b s : ℝ)
    (hb : ∀ i : Pop, i.bias m = b) (hs : ∀ i : Pop, i.sigma m = s) (hso : m.useSo = false) (h1 : m.NcBs = 0) (h2 : m.NsBsB = 0) :
    (galPower (baseOf (E := E) P Dk Dmu) k mu m).1 =
      .ok (m.alphas.drag ^ 3 / (m.alphas.perp ^ 2 * m.alphas.par) *
        (m.fog.G (m.kp k mu) (m.mup mu) s ^ 2 * P b b (m.kp k mu) (m.mup mu))) := by
  rw [C62_population_sum]
  have : ∀ i j : Pop, pairPower P m (m.kp k mu) (m.mup mu) i j =
      m.fog.G (m.kp k mu) (m.mup mu) s ^ 2 * P b b (m.kp k mu) (m.mup mu) := by
    intro i j
    simp only [pairPower, pairDamping, hso, Bool.false_eq_true, false_and, if_false, hb, hs, ite_self, oneHaloAmp, h1, h2]
    ring
  simp only [galSpec, this, soOneHalo, hso, Bool.false_eq_true, if_false, add_zero]
  rw [Finset.sum_congr rfl (fun i _ => (Finset.sum_mul _ _ _).symm), ← Finset.sum_mul, C62_weights]
  simp

/-- A model to which all this applies, with four different populations. -/
noncomputable def galExample : GalM :=
  { alphas := ⟨1.02, 0.98, 1⟩, fs := 0.1, fcB := 0.08, fsB := 0.4, b1cA := 1.9, b1cB := 2.8, b1sA := 2.6, b1sB := 3.6,
    sigmaC := 1, sigmaSA := 3.5, sigmaSB := 5, NcBs := 45000, NsBsB := 90000, N := 100, useSo := true, fso := 0.04, sigmaSo := 5,
    fog := .modifiedLorentzian, b1 := 2, b1bar := 2 }

/-- The hypotheses of `C62_identical` are met by a model with non-trivial fractions. -/
example : ∃ (m : GalM) (b s : ℝ), (∀ i : Pop, i.bias m = b) ∧ (∀ i : Pop, i.sigma m = s) ∧ m.useSo = false ∧ m.NcBs = 0 ∧ m.NsBsB = 0 ∧
    m.fs = 0.1 ∧ m.fcB = 0.08 :=
  ⟨{ galExample with b1cA := 2, b1cB := 2, b1sA := 2, b1sB := 2, sigmaC := 3, sigmaSA := 3, sigmaSB := 3, useSo := false, NcBs := 0, NsBsB := 0 },
    2, 3, by intro i; cases i <;> rfl, by intro i; cases i <;> rfl, rfl, rfl, rfl, rfl, rfl⟩

/-! ### C66 -/

/-- **C66, galaxies (counterexample).** The power of the galaxy model does not depend on `N` at all: every component is evaluated with
`N = 0` and `N` is never added. -/
theorem C66_gal_counterexample (P Dk Dmu : ℝ → ℝ → ℝ → ℝ → ℝ) (k mu N : ℝ) (m : GalM) :
    (galPower (baseOf (E := E) P Dk Dmu) k mu { m with N := N }).1 = (galPower (baseOf P Dk Dmu) k mu m).1 := by
  rw [C62_population_sum, C62_population_sum]
  rfl

/-- It is not `N`-independence of the pieces: a single component spectrum has `N` added to it (scaled by the volume factor). -/
theorem C66_gal_component (P Dk Dmu : ℝ → ℝ → ℝ → ℝ → ℝ) (k mu c : ℝ) (m : GalM) :
    PsBsB (baseOf (E := E) P Dk Dmu) { m with N := m.N + c } k mu =
      PsBsB (baseOf (E := E) P Dk Dmu) m k mu + m.alphas.drag ^ 3 / (m.alphas.perp ^ 2 * m.alphas.par) * c := by
  have h : ∀ k mu, (tsBsB (baseOf (E := E) P Dk Dmu)).call k mu = pureEv (fun m =>
      m.fog.G k mu m.sigmaSB * m.fog.G k mu m.sigmaSB * (P m.b1sB m.b1sB k mu + m.NsBsB) + m.N) := fun k mu => by
    rw [tsBsB, damped2]; rfl
  simp only [PsBsB, decorated_pure k mu _ _ h, value_pure, rescale, GalM.kp, GalM.mup]
  ring

end Verif.Rsd
