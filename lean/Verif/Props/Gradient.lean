/-
C68: the gradient of the model power is the gradient along the free parameters, constraints included.
-/
import Verif.Model.Gradient
import Verif.Props.GalParams
import Mathlib.Analysis.Calculus.FDeriv.Comp
import Mathlib.Analysis.Calculus.FDeriv.Prod
import Mathlib.Analysis.Calculus.Deriv.Comp
import Mathlib.Analysis.Calculus.Deriv.Prod
import Mathlib.Analysis.Calculus.Deriv.Inv
import Mathlib.Analysis.Calculus.Deriv.Slope
import Mathlib.Analysis.Calculus.Deriv.Pi
import Mathlib.Analysis.Calculus.Deriv.Pow
import Mathlib.Analysis.Calculus.FDeriv.Pow
import Mathlib.Tactic.FinCases
import Mathlib.Tactic.Ring
import Mathlib.Tactic.FieldSimp
import Mathlib.Tactic.Linarith

namespace Verif.Grad

open Verif.Params

noncomputable section

variable {N ι : Type} [DecidableEq N] [Fintype N]

/-! ### Specification -/

/-- Changing `x` changes `n` through the constraints. -/
inductive Reaches (sys : Sys N ℝ) (x : N) : N → Prop where
  | direct (n : N) (e : Expr N ℝ) (h : sys.expr n = some e) (hx : x ∈ e.deps) : Reaches sys x n
  | step (n d : N) (e : Expr N ℝ) (h : sys.expr n = some e) (hd : d ∈ e.deps) (hr : Reaches sys x d) : Reaches sys x n

/-- A differentiable model `F` of the parameters, a differentiable solution `W t` of the constraints when the free parameter `x`
has the value `t`, and the tables consulted by `compute` at `t₀`. -/
structure Setup (sys : Sys N ℝ) (g : Env N ι) (x : N) (t₀ : ℝ) where
  nodup : sys.names.Nodup
  complete : Complete sys
  acyclic : Acyclic sys
  /-- the `children` sets are those of `prepare_params` -/
  prep : ∃ fuel p, prepare sys fuel = some p ∧ g.children = p.children
  free : ∀ n, g.free n = (sys.vary n && (sys.expr n).isNone)
  constrained : ∀ n, g.constrained n = (sys.expr n).isSome
  isFree : g.free x = true
  base : N → ℝ
  W : ℝ → N → ℝ
  solves : ∀ t, Solves sys (upd base x t) (W t)
  D : N → ℝ
  hasD : ∀ n, HasDerivAt (fun t => W t n) (D n) t₀
  autograd : ∀ c, g.autograd c x = D c
  /-- the power at every point as a function of all parameters -/
  F : (N → ℝ) → ι → ℝ
  F' : ι → (N → ℝ) →L[ℝ] ℝ
  hasF : ∀ i, HasFDerivAt (fun w => F w i) (F' i) (W t₀)
  /-- the model reads its own parameters only -/
  reads : ∀ w w', (∀ n, g.valid n = true → w n = w' n) → F w = F w'
  /-- the registered derivatives are the partial derivatives (C63) -/
  registry : ∀ n r, g.registry n = some r → ∀ i, r i = F' i (Pi.single n 1)

variable {sys : Sys N ℝ} {g : Env N ι} {x : N} {t₀ : ℝ}

theorem Setup.notValid (S : Setup sys g x t₀) (n : N) (hn : g.valid n = false) (i : ι) : S.F' i (Pi.single n 1) = 0 := by
  have h1 : HasDerivAt (fun s : ℝ => S.F (S.W t₀ + s • (Pi.single n 1 : N → ℝ)) i) (S.F' i (Pi.single n 1)) 0 := by
    have h2 : HasDerivAt (fun s : ℝ => S.W t₀ + s • (Pi.single n 1 : N → ℝ)) (Pi.single n 1) 0 := by
      have := ((hasDerivAt_id (0 : ℝ)).smul_const (Pi.single n 1 : N → ℝ)).const_add (S.W t₀)
      simpa using this
    have h3 : HasFDerivAt (fun w => S.F w i) (S.F' i) (S.W t₀ + (0 : ℝ) • (Pi.single n 1 : N → ℝ)) := by simpa using S.hasF i
    exact h3.comp_hasDerivAt 0 h2
  have h4 : (fun s : ℝ => S.F (S.W t₀ + s • (Pi.single n 1 : N → ℝ)) i) = fun _ => S.F (S.W t₀) i := by
    funext s
    refine congrFun (S.reads _ _ (fun m hm => ?_)) i
    have : m ≠ n := by rintro rfl; rw [hn] at hm; cases hm
    simp [Pi.single_apply, this]
  rw [h4] at h1
  exact h1.unique (hasDerivAt_const _ _)

/-- parameters not reached by `x` do not change -/
theorem Setup.constant (S : Setup sys g x t₀) (n : N) (hx : n ≠ x) (hr : ¬ Reaches sys x n) (t : ℝ) : S.W t n = S.W t₀ n := by
  obtain ⟨rank, hrank⟩ := S.acyclic
  generalize hk : rank n = k
  induction k using Nat.strongRecOn generalizing n with
  | ind k ih =>
    have h1 := S.solves t n
    have h2 := S.solves t₀ n
    cases he : sys.expr n with
    | none =>
      simp only [he] at h1 h2
      rw [h1, h2]; simp [upd, hx]
    | some e =>
      simp only [he] at h1 h2
      rw [h1, h2]
      congr 2
      refine List.map_congr_left (fun d hd => ?_)
      have hdx : d ≠ x := by rintro rfl; exact hr (.direct n e he hd)
      exact ih (rank d) (hk ▸ hrank n e he d hd) d hdx (fun h => hr (.step n d e he hd h)) rfl

theorem Setup.D_zero (S : Setup sys g x t₀) (n : N) (hx : n ≠ x) (hr : ¬ Reaches sys x n) : S.D n = 0 := by
  have h : (fun t => S.W t n) = fun _ => S.W t₀ n := funext (S.constant n hx hr)
  have := S.hasD n
  rw [h] at this
  exact this.unique (hasDerivAt_const _ _)

theorem Setup.x_free (S : Setup sys g x t₀) : sys.expr x = none := by
  have := S.isFree
  rw [S.free] at this
  simp only [Bool.and_eq_true, Option.isNone_iff_eq_none] at this
  exact this.2

theorem Setup.D_x (S : Setup sys g x t₀) : S.D x = 1 := by
  have h : (fun t => S.W t x) = fun t => t := by
    funext t
    have := S.solves t x
    simp only [S.x_free] at this
    rw [this]; simp [upd]
  have := S.hasD x
  rw [h] at this
  exact this.unique (hasDerivAt_id _)

theorem prepare_children_nodup {V : Type} {sys : Sys N V} (hn : sys.names.Nodup) (fuel : Nat) (p : Prep N)
    (e : prepare sys fuel = some p) (d : N) : (p.children d).Nodup :=
  (prepLoop_inv hn fuel fuel _ p (prepInit_inv hn) e).1.cnodup d

theorem addChildren_eq (S : Setup sys g x t₀) (rec : N → Except GErr (ι → ℝ)) (cs : List N) (acc v : ι → ℝ)
    (hrec : ∀ c ∈ cs, ∀ a, rec c = .ok a → ∀ i, a i = S.F' i (Pi.single c 1))
    (hc : ∀ c ∈ cs, sys.expr c ≠ none)
    (h : addChildren g rec x cs acc = .ok v) (i : ι) :
    v i = acc i + (cs.map (fun c => S.D c * S.F' i (Pi.single c 1))).sum := by
  induction cs generalizing acc with
  | nil => simp only [addChildren, Except.ok.injEq] at h; subst h; simp
  | cons c cs ih =>
    simp only [addChildren] at h
    have hcc := hc c List.mem_cons_self
    split at h
    · cases h
    next a ha =>
      have hai := hrec c List.mem_cons_self a ha i
      have hcd : constraintDerivative g c x = .ok (S.D c) := by
        have h1 : c ≠ x := by rintro rfl; exact hcc S.x_free
        have h2 : g.constrained c = true := by rw [S.constrained, Option.isSome_iff_ne_none]; exact hcc
        simp [constraintDerivative, h1, S.isFree, h2, S.autograd]
      have hr : ∀ c' ∈ cs, ∀ a, rec c' = .ok a → ∀ i, a i = S.F' i (Pi.single c' 1) := fun c' hc' => hrec c' (List.mem_cons_of_mem _ hc')
      have hc' : ∀ c' ∈ cs, sys.expr c' ≠ none := fun c' hc' => hc c' (List.mem_cons_of_mem _ hc')
      split at h
      · rw [hcd] at h
        simp only at h
        have := ih _ hr hc' h
        rw [this, List.map_cons, List.sum_cons, hai]
        ring
      next ha0 =>
        have ha0 : a = 0 := by simpa using ha0
        have := ih _ hr hc' h
        rw [this, List.map_cons, List.sum_cons, ← hai, ha0]
        simp

/-- what `compute` returns, term by term -/
theorem compute_eq (S : Setup sys g x t₀) (fuel : Nat) (v : ι → ℝ) (h : compute g fuel x = .ok v) (i : ι) :
    v i = S.F' i (Pi.single x 1) + ((g.children x).map (fun c => S.D c * S.F' i (Pi.single c 1))).sum := by
  obtain ⟨fl, p, hp, hch⟩ := S.prep
  have hD := prepare_direct S.nodup S.complete fl p hp
  cases fuel with
  | zero => simp [compute] at h
  | succ fuel =>
    simp only [compute, S.isFree, Bool.or_true, Bool.not_true, Bool.false_eq_true, if_false] at h
    split at h
    · cases h
    next d hd =>
      rw [← S.registry x d hd i]
      have hcon : ∀ c ∈ g.children x, sys.expr c ≠ none := by
        intro c hc
        rw [hch] at hc
        obtain ⟨e, he, -⟩ := (hD.base x c S.x_free).1 hc
        rw [he]; simp
      refine addChildren_eq S _ _ d v ?_ hcon h i
      intro c hc a ha j
      have hcc := hcon c hc
      cases fuel with
      | zero => simp [compute] at ha
      | succ fuel =>
        have hf : g.free c = false := by
          rw [S.free]
          cases he : sys.expr c with
          | none => exact absurd he hcc
          | some e => simp
        have hcn : g.children c = [] := by rw [hch]; exact hD.con c hcc
        simp only [compute, hf, Bool.or_false, hcn, addChildren] at ha
        split at ha
        next hv =>
          simp only [Except.ok.injEq] at ha
          subst ha
          rw [S.notValid c (by simpa using hv)]; rfl
        · split at ha
          · cases ha
          next d' hd' =>
            simp only [Except.ok.injEq] at ha
            subst ha
            exact S.registry c d' hd' j

/-- The parameters of the model that change with `x`, but only through other constrained parameters. -/
def missed (sys : Sys N ℝ) (g : Env N ι) (x n : N) : Prop :=
  g.valid n = true ∧ Reaches sys x n ∧ ¬ ∃ e, sys.expr n = some e ∧ x ∈ e.deps

open Classical in
/-- C68, exact form: what the analytic gradient of a free parameter leaves out of the derivative of the power along that parameter is
exactly the contribution of the model parameters that depend on it only through other constrained parameters. -/
theorem C68_total (S : Setup sys g x t₀) (fuel : Nat) (v : ι → ℝ) (h : compute g fuel x = .ok v) (i : ι) :
    HasDerivAt (fun t => S.F (S.W t) i)
      (v i + ∑ n ∈ Finset.univ.filter (missed sys g x), S.D n * S.F' i (Pi.single n 1)) t₀ := by
  have hW : HasDerivAt S.W S.D t₀ := hasDerivAt_pi.2 S.hasD
  have h1 : HasDerivAt (fun t => S.F (S.W t) i) (S.F' i S.D) t₀ := (S.hasF i).comp_hasDerivAt t₀ hW
  refine h1.congr_deriv ?_
  have h2 : S.F' i S.D = ∑ n, S.D n * S.F' i (Pi.single n 1) := by
    have := LinearMap.pi_apply_eq_sum_univ (S.F' i).toLinearMap S.D
    simp only [ContinuousLinearMap.coe_coe, smul_eq_mul] at this
    rw [this]
    refine Finset.sum_congr rfl (fun n _ => ?_)
    congr 2
    funext j
    simp [Pi.single_apply, eq_comm]
  rw [h2, compute_eq S fuel v h i]
  obtain ⟨fl, p, hp, hch⟩ := S.prep
  have hD := prepare_direct S.nodup S.complete fl p hp
  have hnd : (g.children x).Nodup := by rw [hch]; exact prepare_children_nodup S.nodup fl p hp x
  have hmem : ∀ n, n ∈ g.children x ↔ ∃ e, sys.expr n = some e ∧ x ∈ e.deps := by
    intro n; rw [hch]; exact hD.base x n S.x_free
  have hx : x ∉ g.children x := by
    rw [hmem]; rintro ⟨e, he, -⟩; rw [S.x_free] at he; cases he
  rw [← List.sum_toFinset _ hnd]
  -- split the sum
  have hsplit : ∑ n, S.D n * S.F' i (Pi.single n 1)
      = ∑ n ∈ insert x ((g.children x).toFinset ∪ Finset.univ.filter (missed sys g x)), S.D n * S.F' i (Pi.single n 1) := by
    symm
    refine Finset.sum_subset (Finset.subset_univ _) (fun n _ hn => ?_)
    simp only [Finset.mem_insert, Finset.mem_union, List.mem_toFinset, Finset.mem_filter, Finset.mem_univ, true_and, not_or] at hn
    obtain ⟨hn1, hn2, hn3⟩ := hn
    by_cases hv : g.valid n = true
    · by_cases hr : Reaches sys x n
      · exact absurd ⟨hv, hr, fun he => hn2 ((hmem n).2 he)⟩ hn3
      · rw [S.D_zero n hn1 hr, zero_mul]
    · rw [S.notValid n (by simpa using hv) i, mul_zero]
  rw [hsplit, Finset.sum_insert, Finset.sum_union, S.D_x, one_mul, add_assoc]
  · rw [Finset.disjoint_left]
    intro n hn hn'
    simp only [Finset.mem_filter, Finset.mem_univ, true_and] at hn'
    exact hn'.2.2 ((hmem n).1 (List.mem_toFinset.1 hn))
  · simp only [Finset.mem_union, List.mem_toFinset, Finset.mem_filter, Finset.mem_univ, true_and, not_or]
    refine ⟨hx, fun hm => ?_⟩
    have hr := hm.2.1
    cases hr with
    | direct _ e he _ => rw [S.x_free] at he; cases he
    | step _ d e he _ _ => rw [S.x_free] at he; cases he

open Classical in
/-- C68: if every model parameter that depends on the free parameter mentions it directly, the analytic gradient is the
derivative of the power along that parameter, constraints included. -/
theorem C68_total_partial (S : Setup sys g x t₀) (hm : ∀ n, ¬ missed sys g x n) (fuel : Nat) (v : ι → ℝ)
    (h : compute g fuel x = .ok v) (i : ι) : HasDerivAt (fun t => S.F (S.W t) i) (v i) t₀ := by
  refine (C68_total S fuel v h i).congr_deriv ?_
  rw [Finset.filter_false_of_mem (fun n _ => hm n), Finset.sum_empty, add_zero]

/-- C68: asked for the derivative of a parameter along a free parameter, `constraint_derivative` returns the derivative of the
constrained value (1 for the parameter itself); asked for a free parameter along a constrained one it returns the reciprocal; it refuses
exactly the pairs in which neither is the case. -/
theorem C68_constraint_derivative (S : Setup sys g x t₀) (n : N) :
    (∀ b, constraintDerivative g n x = .ok b → HasDerivAt (fun t => S.W t n) b t₀) ∧
    (∀ b, n ≠ x → constraintDerivative g x n = .ok b → HasDerivAt (fun t => S.W t n) b⁻¹ t₀) ∧
    ((∃ b, constraintDerivative g n x = .ok b) ↔ n = x ∨ sys.expr n ≠ none) := by
  have hcon : g.constrained n = true ↔ sys.expr n ≠ none := by rw [S.constrained, Option.isSome_iff_ne_none]
  have hfree : sys.expr n ≠ none → g.free n = false := by
    intro h
    rw [S.free]
    cases he : sys.expr n with
    | none => exact absurd he h
    | some e => simp
  have hx := S.isFree
  have hxc : g.constrained x = false := by rw [S.constrained, S.x_free]; rfl
  refine ⟨fun b hb => ?_, fun b hn hb => ?_, ?_⟩
  · unfold constraintDerivative at hb
    by_cases e : n = x
    · subst e
      simp only [if_true, Except.ok.injEq] at hb
      subst hb
      exact (S.hasD n).congr_deriv S.D_x
    · simp only [e, if_false, hx, Bool.not_true, Bool.false_and, Bool.false_eq_true] at hb
      split at hb
      · cases hb
      · simp only [Except.ok.injEq] at hb
        subst hb
        rw [S.autograd]; exact S.hasD n
  · unfold constraintDerivative at hb
    simp only [Ne.symm hn, if_false, hx, hxc, Bool.and_true] at hb
    split at hb
    · split at hb
      · cases hb
      · simp only [Except.ok.injEq] at hb
        subst hb
        rw [inv_inv, S.autograd]; exact S.hasD n
    · simp at hb
  · unfold constraintDerivative
    by_cases e : n = x
    · simp [e]
    · simp only [e, if_false, hx, Bool.not_true, Bool.false_and, Bool.false_eq_true, false_or]
      rw [← hcon]
      cases g.constrained n <;> simp

/-! ### The shipped galaxy constraints -/

open Gal

/-- The parameters of the galaxy model with a registered derivative (`gal/derivatives/*.py`, `param = ...`; `log10_fso` is not one of the
shipped parameters). -/
def galRegistered : List Gal :=
  [NcBs, alpha_par, fcB, sigma_c, f1h_sBsB, Nsat_mult, f1h_cBs, fs, f_so, alpha_perp, NsBsB, fsB, sigma_so]

/-- one step of "depends on" -/
def galUp (s : List Gal) : List Gal := galNames.filter (fun n => decide (n ∈ s) || (galDeps n).any (fun d => decide (d ∈ s)))

/-- everything that depends on `x`, and `x` -/
def galReach (x : Gal) : List Gal := galUp (galUp (galUp (galUp (galUp [x]))))

instance : Fintype Gal := ⟨⟨galNames, gal_nodup⟩, gal_mem⟩

theorem galReach_closed (x n d : Gal) (hd : d ∈ galDeps n) (h : d ∈ galReach x) : n ∈ galReach x := by
  have : ∀ x, galUp (galReach x) = galReach x := by intro x; cases x <;> decide +kernel
  rw [← this]
  simp only [galUp, List.mem_filter, gal_mem, true_and, Bool.or_eq_true, decide_eq_true_eq, List.any_eq_true]
  exact Or.inr ⟨d, hd, h⟩

/-- The constraint system mentions what the shipped one mentions (its expressions, bounds and free parameters may differ). -/
structure GalLike (sys : Sys Gal ℝ) : Prop where
  names : sys.names = galNames
  none : ∀ n, sys.expr n = none ↔ galDeps n = []
  deps : ∀ n e, sys.expr n = some e → e.deps = galDeps n

theorem GalLike.reaches {sys : Sys Gal ℝ} (h : GalLike sys) (x n : Gal) (hr : Reaches sys x n) : n ∈ galReach x := by
  have hx : ∀ x, x ∈ galReach x := by intro x; cases x <;> decide +kernel
  induction hr with
  | direct n e he hm => exact galReach_closed x n x (h.deps n e he ▸ hm) (hx x)
  | step n d e he hd _ ih => exact galReach_closed x n d (h.deps n e he ▸ hd) ih

theorem addChildren_all {g : Env N ι} {rec : N → Except GErr (ι → ℝ)} {x : N} (cs : List N) (acc v : ι → ℝ)
    (h : addChildren g rec x cs acc = .ok v) (c : N) (hc : c ∈ cs) : ∃ a, rec c = .ok a := by
  induction cs generalizing acc with
  | nil => cases hc
  | cons d cs ih =>
    simp only [addChildren] at h
    split at h
    · cases h
    next a ha =>
      rcases List.mem_cons.1 hc with rfl | hc
      · exact ⟨a, ha⟩
      · split at h
        · split at h
          · cases h
          · exact ih _ h hc
        · exact ih _ h hc

/-- C68 for the shipped galaxy constraints: whenever the analytic gradient of a free parameter is available (otherwise the
finite difference is used), it is the derivative of the power along that parameter, constraints included. -/
theorem C68_gal_shipped {sys : Sys Gal ℝ} {g : Env Gal ι} {x : Gal} {t₀ : ℝ} (S : Setup sys g x t₀) (hg : GalLike sys)
    (hvalid : ∀ n, g.valid n = decide (n ∈ galModelParams)) (hreg : ∀ n, n ∉ galRegistered → g.registry n = none)
    (fuel : Nat) (v : ι → ℝ) (h : compute g fuel x = .ok v) (i : ι) :
    HasDerivAt (fun t => S.F (S.W t) i) (v i) t₀ := by
  refine C68_total_partial S (fun n hm => ?_) fuel v h i
  obtain ⟨hv, hr0, hn⟩ := hm
  have hr := hg.reaches x n hr0
  rw [hvalid, decide_eq_true_eq] at hv
  have hx : galDeps x = [] := (hg.none x).1 S.x_free
  have hn : x ∉ galDeps n := by
    intro hmem
    cases he : sys.expr n with
    | none => rw [(hg.none n).1 he] at hmem; cases hmem
    | some e => exact hn ⟨e, he, by rw [hg.deps n e he]; exact hmem⟩
  have hnx : n ≠ x ∨ n = x := (em _).symm
  obtain ⟨fl, p, hp, hch⟩ := S.prep
  have hD := prepare_direct S.nodup S.complete fl p hp
  -- everything `compute` looked at is registered
  have hreg' : x ∈ galRegistered ∧ ∀ c, x ∈ galDeps c → c ∈ galModelParams → c ∈ galRegistered := by
    cases fuel with
    | zero => simp [compute] at h
    | succ fuel =>
      simp only [compute, S.isFree, Bool.or_true, Bool.not_true, Bool.false_eq_true, if_false] at h
      split at h
      · cases h
      next d hd =>
        refine ⟨by_contra fun hc => Option.some_ne_none d (hd ▸ hreg x hc), fun c hc hcv => by_contra fun hcr => ?_⟩
        have hcm : c ∈ g.children x := by
          rw [hch, hD.base x c S.x_free]
          cases he : sys.expr c with
          | none => rw [(hg.none c).1 he] at hc; cases hc
          | some e => exact ⟨e, rfl, by rw [hg.deps c e he]; exact hc⟩
        obtain ⟨a, ha⟩ := addChildren_all _ _ _ h c hcm
        cases fuel with
        | zero => simp [compute] at ha
        | succ fuel =>
          have : g.valid c = true := by rw [hvalid]; simpa using hcv
          simp [compute, this, hreg c hcr] at ha
  have key : ∀ x n : Gal, galDeps x = [] → n ∈ galModelParams → n ∈ galReach x → x ∉ galDeps n → n ≠ x → x ∈ galRegistered →
      ¬ ∀ c, x ∈ galDeps c → c ∈ galModelParams → c ∈ galRegistered := by
    decide +kernel
  rcases hnx with hnx | hnx
  · exact key x n hx hv hr hn hnx hreg'.1 hreg'.2
  · subst hnx
    cases hr0 with
    | direct _ e he _ => rw [S.x_free] at he; cases he
    | step _ d e he _ _ => rw [S.x_free] at he; cases he

/-! ### Instances -/

theorem prepare_congr {V V' : Type} (sys : Sys N V) (sys' : Sys N V') (hn : sys.names = sys'.names)
    (he : ∀ n, (sys.expr n).map Expr.deps = (sys'.expr n).map Expr.deps) (fuel : Nat) : prepare sys fuel = prepare sys' fuel := by
  have h1 : (fun d => (sys.expr d).isSome) = fun d => (sys'.expr d).isSome := by
    funext d
    have := he d
    cases h : sys.expr d <;> cases h' : sys'.expr d <;> simp_all
  have h2 : prepInit sys = prepInit sys' := by
    simp only [prepInit, Prep.mk.injEq, ← hn]
    constructor
    · funext n
      have := he n
      cases h : sys.expr n <;> cases h' : sys'.expr n <;> simp_all
    · funext d
      congr 1
      funext n
      have := he n
      cases h : sys.expr n <;> cases h' : sys'.expr n <;> simp_all
  unfold prepare
  rw [h1, h2, hn]

/-- The constraints of the shipped `fcB` and `NcBs`, every other parameter being unconstrained. -/
def freedExpr : Gal → Option (Expr Gal ℝ)
  | fcB => some ⟨[fs, fsB, Nsat_mult], fun
      | [x_fs, x_fsB, nm] => x_fs / (1 - x_fs) * (1 + x_fsB * (1 / nm - 1))
      | _ => 0⟩
  | NcBs => some ⟨[f1h_cBs, fcB, fs, nbar], fun
      | [a, x_fcB, x_fs, x_nbar] => a / (x_fcB * (1 - x_fs) * x_nbar)
      | _ => 0⟩
  | _ => none

/-- a parameter set with these constraints -/
def freedSys : Sys Gal ℝ := { names := galNames, expr := freedExpr, vary := fun _ => true, clamp := fun _ v => v }

/-- the same names and dependencies, without values -/
def freedShape : Sys Gal Unit :=
  { names := galNames
    expr := fun n => match n with
      | fcB => some ⟨[fs, fsB, Nsat_mult], fun _ => ()⟩
      | NcBs => some ⟨[f1h_cBs, fcB, fs, nbar], fun _ => ()⟩
      | _ => none
    vary := fun _ => true
    clamp := fun _ v => v }

/-- tables of a model whose power is its parameter `NcBs` -/
def freedEnv (ch : Gal → List Gal) : Env Gal Unit :=
  { children := ch
    valid := fun n => decide (n ∈ galModelParams)
    free := fun n => (freedExpr n).isNone
    constrained := fun n => (freedExpr n).isSome
    registry := fun n => if n ∈ galRegistered then some (fun _ => if n = NcBs then 1 else 0) else none
    autograd := fun c _ => if c = fcB then -1 / 2 else if c = NcBs then 1 else if c = Nsat_mult then 1 else 0 }

/-- the values: `fs = fsB = 1/2`, everything else 1 -/
def freedBase : Gal → ℝ := fun n => if n = fs ∨ n = fsB then 1 / 2 else 1

/-- the solution of the constraints -/
def freedW (t : ℝ) : Gal → ℝ := fun n =>
  if n = Nsat_mult then t else if n = fcB then 1 + 1 / 2 * (1 / t - 1) else if n = NcBs then 1 / ((1 + 1 / 2 * (1 / t - 1)) * (1 / 2)) else freedBase n

theorem freed_setup (ch : Gal → List Gal) (hch : ∃ p, prepare freedSys 40 = some p ∧ ch = p.children) :
    ∃ S : Setup freedSys (freedEnv ch) Nsat_mult 1, S.F = (fun w _ => w NcBs) ∧ S.W = freedW := by
  refine ⟨{ nodup := gal_nodup
            complete := fun n _ _ => ⟨gal_mem n, fun d _ => gal_mem d⟩
            acyclic := ⟨galRank, ?_⟩
            prep := ⟨40, hch⟩
            free := fun _ => by simp [freedSys, freedEnv]
            constrained := fun _ => rfl
            isFree := rfl
            base := freedBase
            W := freedW
            solves := ?_
            D := fun c => if c = fcB then -1 / 2 else if c = NcBs then 1 else if c = Nsat_mult then 1 else 0
            hasD := ?_
            autograd := fun _ => rfl
            F := fun w _ => w NcBs
            F' := fun _ => ContinuousLinearMap.proj NcBs
            hasF := fun _ => (ContinuousLinearMap.proj NcBs : (Gal → ℝ) →L[ℝ] ℝ).hasFDerivAt
            reads := fun w w' h => by funext _; exact h NcBs (by simp [freedEnv, galModelParams])
            registry := ?_ }, rfl, rfl⟩
  · intro n e he d hd
    cases n <;> simp only [freedSys, freedExpr, Option.some.injEq, reduceCtorEq] at he <;> subst he <;>
      revert d <;> decide
  · intro t n
    cases n <;> simp [freedSys, freedExpr, freedW, freedBase, upd] <;> norm_num
  · have hfc : HasDerivAt (fun t : ℝ => 1 + 1 / 2 * (1 / t - 1)) (-1 / 2) 1 := by
      have h := (((hasDerivAt_inv (one_ne_zero (α := ℝ))).sub_const 1).const_mul (1 / 2)).const_add 1
      refine (h.congr_deriv (by norm_num)).congr_of_eventuallyEq (Filter.Eventually.of_forall fun t => ?_)
      simp [one_div]
    have hnc : HasDerivAt (fun t : ℝ => 1 / ((1 + 1 / 2 * (1 / t - 1)) * (1 / 2))) 1 1 := by
      have h := (hfc.mul_const (1 / 2)).inv (by norm_num)
      refine (h.congr_deriv (by norm_num)).congr_of_eventuallyEq (Filter.Eventually.of_forall fun t => ?_)
      simp only []
      rw [one_div, Pi.inv_apply]
    intro n
    by_cases h1 : n = Nsat_mult
    · subst h1; exact hasDerivAt_id' (1 : ℝ)
    · by_cases h2 : n = fcB
      · subst h2; simpa only [freedW, if_true, reduceCtorEq, if_false] using hfc
      · by_cases h3 : n = NcBs
        · subst h3; simpa only [freedW, if_true, reduceCtorEq, if_false] using hnc
        · simpa [freedW, h1, h2, h3] using hasDerivAt_const (1 : ℝ) (freedBase n)
  · intro n r hr i
    simp only [freedEnv] at hr
    split at hr
    · simp only [Option.some.injEq] at hr
      subst hr
      simp [Pi.single_apply, eq_comm]
    · cases hr

theorem freed_prepared : ∃ p, prepare freedSys 40 = some p := by
  have h : (prepare freedShape 40).isSome = true := by decide +kernel
  rw [prepare_congr freedSys freedShape rfl (fun n => by cases n <;> rfl)]
  exact Option.isSome_iff_exists.1 h

/-- C68 is false in general: with `b1_cB` (and the other constraints not needed here) released in the parameter file, the analytic
gradient along `Nsat_mult` misses the dependence of `NcBs` on it, which goes through `fcB`. -/
theorem C68_indirect_counterexample : ∃ (g : Env Gal Unit) (S : Setup freedSys g Nsat_mult 1) (v : Unit → ℝ),
    compute g 5 Nsat_mult = .ok v ∧ ¬ HasDerivAt (fun t => S.F (S.W t) ()) (v ()) 1 := by
  obtain ⟨p, hp⟩ := freed_prepared
  obtain ⟨S, hF, hW⟩ := freed_setup p.children ⟨p, hp, rfl⟩
  have hD := prepare_direct S.nodup S.complete 40 p hp
  have hmem : ∀ n, n ∈ p.children Nsat_mult ↔ n = fcB := by
    intro n
    rw [hD.base Nsat_mult n rfl]
    cases n <;> simp [freedSys, freedExpr]
  have hlist : p.children Nsat_mult = [fcB] := by
    have hnd := prepare_children_nodup S.nodup 40 p hp Nsat_mult
    cases hl : p.children Nsat_mult with
    | nil => have := (hmem fcB).2 rfl; rw [hl] at this; cases this
    | cons a l =>
      have ha : a = fcB := (hmem a).1 (by rw [hl]; exact List.mem_cons_self)
      subst ha
      cases l with
      | nil => rfl
      | cons b l =>
        have hb : b = fcB := (hmem b).1 (by rw [hl]; exact List.mem_cons_of_mem _ List.mem_cons_self)
        subst hb
        rw [hl] at hnd
        simp at hnd
  have hch2 : p.children fcB = [] := hD.con fcB (by simp [freedSys, freedExpr])
  refine ⟨freedEnv p.children, S, fun _ => 0, ?_, ?_⟩
  · have h0 : (fun _ : Unit => (0 : ℝ)) = 0 := rfl
    simp [compute, freedEnv, freedExpr, galModelParams, galRegistered, hlist, hch2, addChildren, h0]
  · intro h
    have h2 := S.hasD NcBs
    have h3 : S.D NcBs = 1 := by rw [← S.autograd NcBs]; simp [freedEnv]
    rw [h3] at h2
    simp only [hF] at h
    exact zero_ne_one (h.unique h2)

/-! An instance of `C68_gal_shipped`: along `f1h_cBs`, with the shipped expression of `NcBs`. -/

/-- shipped dependencies; the shipped expression for `NcBs`, constants for the others -/
def shipExpr (n : Gal) : Option (Expr Gal ℝ) :=
  if galDeps n = [] then none
  else some ⟨galDeps n, fun vs => if n = NcBs then (match vs with
      | [a, x_fcB, x_fs, x_nbar] => a / (x_fcB * (1 - x_fs) * x_nbar)
      | _ => 0) else 1⟩

/-- a parameter set with these constraints -/
def shipSys : Sys Gal ℝ := { names := galNames, expr := shipExpr, vary := fun _ => true, clamp := fun _ v => v }

/-- tables of a model whose power is `NcBs²` -/
def shipEnv (ch : Gal → List Gal) : Env Gal Unit :=
  { children := ch
    valid := fun n => decide (n ∈ galModelParams)
    free := fun n => (shipExpr n).isNone
    constrained := fun n => (shipExpr n).isSome
    registry := fun n => if n ∈ galRegistered then some (fun _ => if n = NcBs then 4 else 0) else none
    autograd := fun c _ => if c = NcBs then 2 else if c = f1h_cBs then 1 else 0 }

/-- the solution of the constraints at `f1h_cBs = t`, `fs = 1/2` -/
def shipW (t : ℝ) : Gal → ℝ := fun n => if n = f1h_cBs then t else if n = NcBs then 2 * t else if n = fs then 1 / 2 else 1

theorem ship_prepared : ∃ p, prepare shipSys 40 = some p := by
  obtain ⟨p, hp⟩ := gal_prepared (fun x => x) (fun _ => true) (fun _ v => v)
  refine ⟨p, ?_⟩
  rw [← hp]
  exact prepare_congr shipSys (galSys (fun x => x) (fun _ => true) (fun _ v => v)) rfl (fun n => by cases n <;> rfl) 40

theorem ship_like : GalLike shipSys := by
  refine ⟨rfl, fun n => ?_, fun n e he => ?_⟩
  · simp only [shipSys, shipExpr]; split <;> simp_all
  · simp only [shipSys, shipExpr] at he; split at he
    · cases he
    · simp only [Option.some.injEq] at he; subst he; rfl

theorem ship_setup (ch : Gal → List Gal) (hch : ∃ p, prepare shipSys 40 = some p ∧ ch = p.children) :
    ∃ S : Setup shipSys (shipEnv ch) f1h_cBs 1, S.F = (fun w _ => w NcBs ^ 2) ∧ S.W = shipW := by
  refine ⟨{ nodup := gal_nodup
            complete := fun n _ _ => ⟨gal_mem n, fun d _ => gal_mem d⟩
            acyclic := ⟨galRank, ?_⟩
            prep := ⟨40, hch⟩
            free := fun _ => by simp [shipSys, shipEnv]
            constrained := fun _ => rfl
            isFree := by simp [shipEnv, shipExpr, galDeps]
            base := fun n => if n = fs then 1 / 2 else 1
            W := shipW
            solves := ?_
            D := fun c => if c = NcBs then 2 else if c = f1h_cBs then 1 else 0
            hasD := ?_
            autograd := fun _ => rfl
            F := fun w _ => w NcBs ^ 2
            F' := fun _ => (4 : ℝ) • ContinuousLinearMap.proj NcBs
            hasF := fun _ => ?_
            reads := fun w w' h => by funext _; rw [h NcBs (by simp [shipEnv, galModelParams])]
            registry := ?_ }, rfl, rfl⟩
  · intro n e he d hd
    have h : ∀ n, ∀ d ∈ galDeps n, galRank d < galRank n := by intro n; cases n <;> decide
    rw [ship_like.deps n e he] at hd
    exact h n d hd
  · intro t n
    cases n <;> simp [shipSys, shipExpr, shipW, galDeps, upd]
    norm_num
    ring
  · intro n
    by_cases h1 : n = f1h_cBs
    · subst h1; exact hasDerivAt_id' (1 : ℝ)
    · by_cases h3 : n = NcBs
      · subst h3
        have := (hasDerivAt_id' (1 : ℝ)).const_mul (2 : ℝ)
        simpa [shipW] using this
      · simpa [shipW, h1, h3] using hasDerivAt_const (1 : ℝ) (if n = fs then (1 / 2 : ℝ) else 1)
  · have h := ((ContinuousLinearMap.proj NcBs : (Gal → ℝ) →L[ℝ] ℝ).hasFDerivAt (x := shipW 1)).pow 2
    refine h.congr_fderiv ?_
    ext w
    simp [shipW]
    norm_num
  · intro n r hr i
    simp only [shipEnv] at hr
    split at hr
    · simp only [Option.some.injEq] at hr
      subst hr
      simp [Pi.single_apply, eq_comm]
    · cases hr

example : ∃ (g : Env Gal Unit) (S : Setup shipSys g f1h_cBs 1) (v : Unit → ℝ),
    compute g 5 f1h_cBs = .ok v ∧ v () = 8 ∧ HasDerivAt (fun t => S.F (S.W t) ()) (v ()) 1 := by
  obtain ⟨p, hp⟩ := ship_prepared
  obtain ⟨S, hF, hW⟩ := ship_setup p.children ⟨p, hp, rfl⟩
  have hD := prepare_direct S.nodup S.complete 40 p hp
  have hmem : ∀ n, n ∈ p.children f1h_cBs ↔ n = NcBs := by
    intro n
    rw [hD.base f1h_cBs n (by simp [shipSys, shipExpr, galDeps])]
    cases n <;> simp [shipSys, shipExpr, galDeps]
  have hlist : p.children f1h_cBs = [NcBs] := by
    have hnd := prepare_children_nodup S.nodup 40 p hp f1h_cBs
    cases hl : p.children f1h_cBs with
    | nil => have := (hmem NcBs).2 rfl; rw [hl] at this; cases this
    | cons a l =>
      have ha : a = NcBs := (hmem a).1 (by rw [hl]; exact List.mem_cons_self)
      subst ha
      cases l with
      | nil => rfl
      | cons b l =>
        have hb : b = NcBs := (hmem b).1 (by rw [hl]; exact List.mem_cons_of_mem _ List.mem_cons_self)
        subst hb
        rw [hl] at hnd
        simp at hnd
  have hch2 : p.children NcBs = [] := hD.con NcBs (by simp [shipSys, shipExpr, galDeps])
  have hc : compute (shipEnv p.children) 5 f1h_cBs = .ok (fun _ => 8) := by
    have h4 : (fun _ : Unit => (4 : ℝ)) ≠ 0 := fun h => by have := congrFun h (); norm_num at this
    simp [compute, shipEnv, shipExpr, galDeps, galModelParams, galRegistered, hlist, hch2, addChildren, constraintDerivative, h4]
    norm_num
  exact ⟨_, S, _, hc, rfl, C68_gal_shipped S ship_like (fun _ => rfl) (fun n hn => by simp [shipEnv, hn]) 5 _ hc ()⟩

/-! ### The numerical part -/

variable {n : ℕ} {E : Type}

theorem callAll_spec (power : (Fin n → ℝ) → Except E (ι → ℝ)) (ts : List (Fin n → ℝ)) (ps : List (ι → ℝ))
    (h : callAll power ts = .ok ps) : ps.length = ts.length ∧ ∀ (j : ℕ) (h1 : j < ts.length) (h2 : j < ps.length), power ts[j] = .ok ps[j] := by
  induction ts generalizing ps with
  | nil => simp only [callAll, Except.ok.injEq] at h; subst h; simp
  | cons t ts ih =>
    simp only [callAll] at h
    split at h
    · cases h
    next p hp =>
      split at h
      · cases h
      next ps' hps =>
        simp only [Except.ok.injEq] at h
        subst h
        obtain ⟨h1, h2⟩ := ih ps' hps
        refine ⟨by simp [h1], fun j hj1 hj2 => ?_⟩
        cases j with
        | zero => exact hp
        | succ j => exact h2 j _ _

theorem analyticRows_spec (analytic : Fin n → Except E (ι → ℝ)) (skip : Fin n → Bool) (is : List (Fin n)) (t r : Fin n → ι → ℝ)
    (h : analyticRows analytic skip is t = .ok r) (i : Fin n) :
    (skip i = false → i ∈ is → analytic i = .ok (r i)) ∧ (skip i = true ∨ i ∉ is → r i = t i) := by
  induction is generalizing t with
  | nil => simp only [analyticRows, Except.ok.injEq] at h; subst h; simp
  | cons a is ih =>
    simp only [analyticRows] at h
    split at h
    next hs =>
      obtain ⟨h1, h2⟩ := ih t h
      refine ⟨fun hi hm => ?_, fun hi => h2 ?_⟩
      · rcases List.mem_cons.1 hm with rfl | hm
        · rw [hs] at hi; cases hi
        · exact h1 hi hm
      · rcases hi with hi | hi
        · exact Or.inl hi
        · exact Or.inr (fun hm => hi (List.mem_cons_of_mem _ hm))
    next hs =>
      split at h
      · cases h
      next row hrow =>
        obtain ⟨h1, h2⟩ := ih _ h
        refine ⟨fun hi hm => ?_, fun hi => ?_⟩
        · by_cases hmem : i ∈ is
          · exact h1 hi hmem
          · rcases List.mem_cons.1 hm with rfl | hm
            · rw [h2 (Or.inr hmem)]; simpa using hrow
            · exact absurd hm hmem
        · rw [h2 (by rcases hi with hi | hi
                     · exact Or.inl hi
                     · exact Or.inr (fun hm => hi (List.mem_cons_of_mem _ hm)))]
          have : i ≠ a := by
            rintro rfl
            rcases hi with hi | hi
            · exact hs hi
            · exact hi List.mem_cons_self
          simp [this]

theorem assignRows_spec (ii : List (Fin n)) (rows : List (ι → ℝ)) (t : Fin n → ι → ℝ) (hl : ii.length = rows.length) (hnd : ii.Nodup) :
    (∀ (j : ℕ) (h1 : j < ii.length) (h2 : j < rows.length), assignRows ii rows t ii[j] = rows[j]) ∧ ∀ i, i ∉ ii → assignRows ii rows t i = t i := by
  induction ii generalizing rows t with
  | nil => cases rows <;> simp [assignRows]
  | cons a ii ih =>
    cases rows with
    | nil => simp at hl
    | cons r rows =>
      rw [List.nodup_cons] at hnd
      obtain ⟨h1, h2⟩ := ih rows (fun j => if j = a then r else t j) (by simpa using hl) hnd.2
      refine ⟨fun j hj1 hj2 => ?_, fun i hi => ?_⟩
      · cases j with
        | zero => simp only [assignRows, List.getElem_cons_zero]; rw [h2 a hnd.1]; simp
        | succ j => simp only [assignRows, List.getElem_cons_succ]; exact h1 j _ _
      · simp only [List.mem_cons, not_or] at hi
        simp only [assignRows]
        rw [h2 i hi.2]; simp [hi.1]

/-- `θ` with the `i`-th component changed by `δ`. -/
def shift (theta : Fin n → ℝ) (i : Fin n) (δ : ℝ) : Fin n → ℝ := Function.update theta i (theta i + δ)

/-- C68, the whole gradient: row `i` of the result is what the analytic derivative of the `i`-th free parameter gives, or, for the parameters
without one and when a numerical gradient was asked for, the central difference with that parameter's own step; afterwards the
parameters and the model are at `theta`, even when an evaluation of the power failed. -/
theorem C68_rows (power : (Fin n → ℝ) → Except E (ι → ℝ)) (analytic : (Fin n → ℝ) → Fin n → Except E (ι → ℝ)) (numIdx : List (Fin n))
    (hnd : numIdx.Nodup) (numerical : Bool) (eps theta s : Fin n → ℝ) (G : Fin n → ι → ℝ) (s' : Fin n → ℝ)
    (h : gradCall power analytic numIdx numerical eps theta s = (.ok G, s')) :
    s' = theta ∧ ∀ i,
      if numerical = true ∨ i ∈ numIdx then
        ∃ Pp Pm, power (shift theta i (eps i)) = .ok Pp ∧ power (shift theta i (-eps i)) = .ok Pm ∧
          ∀ x, G i x = (Pp x - Pm x) / (2 * eps i)
      else analytic s i = .ok (G i) := by
  simp only [gradCall] at h
  split at h
  · cases h
  next toret ht =>
    split at h
    · cases h
    next results hres =>
      simp only [Prod.mk.injEq, Except.ok.injEq] at h
      obtain ⟨hG, hs⟩ := h
      refine ⟨hs.symm, fun i => ?_⟩
      set ii := if !numerical then numIdx else List.finRange n with hii
      have hind : ii.Nodup := by
        rw [hii]; split
        · exact hnd
        · exact List.nodup_finRange n
      obtain ⟨hlen, hget⟩ := callAll_spec power _ _ hres
      simp only [List.length_append, List.length_map] at hlen
      have hrl : ii.length = (List.zipWith (fun (i : Fin n) (p : (ι → ℝ) × (ι → ℝ)) => fun x => (p.1 x - p.2 x) / (2 * eps i)) ii
          ((results.take ii.length).zip (results.drop ii.length))).length := by
        simp only [List.length_zipWith, List.length_zip, List.length_take, List.length_drop]; omega
      obtain ⟨ha, hb⟩ := assignRows_spec ii _ toret hrl hind
      obtain ⟨hc, hd⟩ := analyticRows_spec _ _ _ _ _ ht i
      have hmem : i ∈ ii ↔ numerical = true ∨ i ∈ numIdx := by
        rw [hii]; cases numerical <;> simp
      split
      next hi =>
        obtain ⟨j, hj, hji⟩ := List.getElem_of_mem (hmem.2 hi)
        have h1 := hget j (by simp only [List.length_append, List.length_map]; omega) (by omega)
        have h2 := hget (ii.length + j) (by simp only [List.length_append, List.length_map]; omega) (by omega)
        have e1 : ∀ δ : ℝ, (fun j' => theta j' + if i = j' then δ else 0) = shift theta i δ := by
          intro δ; funext j'
          simp only [shift, Function.update_apply]
          by_cases hh : j' = i
          · subst hh; simp
          · simp [hh, Ne.symm hh]
        refine ⟨results[j], results[ii.length + j], ?_, ?_, fun x => ?_⟩
        · rw [← h1, List.getElem_append_left (by simpa using hj)]
          simp only [List.getElem_map, hji]
          congr 1
          rw [← e1]
          funext j'; by_cases hh : i = j' <;> simp [hh]
        · rw [← h2, List.getElem_append_right (by simp)]
          simp only [List.length_map, Nat.add_sub_cancel_left, List.getElem_map, hji]
          congr 1
          rw [← e1]
          funext j'; by_cases hh : i = j' <;> simp [hh, sub_eq_add_neg]
        · have := ha j hj (hrl ▸ hj)
          rw [hji] at this
          rw [← hG, this]
          simp [List.getElem_zipWith, List.getElem_zip, List.getElem_take, List.getElem_drop, hji]
      next hi =>
        have : G i = toret i := by rw [← hG]; exact hb i (fun hm => hi (hmem.1 hm))
        rw [this]
        refine hc ?_ (List.mem_finRange i)
        simp only [not_or, Bool.not_eq_true] at hi
        simp [hi.1, hi.2]

theorem analyticRows_error (analytic : Fin n → Except E (ι → ℝ)) (skip : Fin n → Bool) (is : List (Fin n)) (t : Fin n → ι → ℝ) (e : E)
    (h : analyticRows analytic skip is t = .error e) : ∃ i, analytic i = .error e := by
  induction is generalizing t with
  | nil => cases h
  | cons a is ih =>
    simp only [analyticRows] at h
    split at h
    · exact ih _ h
    · split at h
      next e' he => cases h; exact ⟨a, he⟩
      · exact ih _ h

/-- C68: a failing gradient also leaves the parameters at `theta`, unless it was an analytic derivative that failed. -/
theorem C68_failure (power : (Fin n → ℝ) → Except E (ι → ℝ)) (analytic : (Fin n → ℝ) → Fin n → Except E (ι → ℝ)) (numIdx : List (Fin n))
    (numerical : Bool) (eps theta s : Fin n → ℝ) (e : E) (s' : Fin n → ℝ)
    (h : gradCall power analytic numIdx numerical eps theta s = (.error e, s')) :
    s' = theta ∨ (s' = s ∧ ∃ i, analytic s i = .error e) := by
  simp only [gradCall] at h
  split at h
  next e' he =>
    obtain ⟨h1, h2⟩ := Prod.mk.inj h
    cases h1
    exact Or.inr ⟨h2.symm, analyticRows_error _ _ _ _ _ he⟩
  · split at h
    · exact Or.inl (Prod.mk.inj h).2.symm
    · cases h

/-- The central difference of the power tends to its derivative along the parameter as the step goes to zero. -/
theorem C68_central_limit (f : ℝ → ℝ) (t f' : ℝ) (h : HasDerivAt f f' t) :
    Filter.Tendsto (fun ε => (f (t + ε) - f (t + -ε)) / (2 * ε)) (nhdsWithin 0 {0}ᶜ) (nhds f') := by
  have h1 := hasDerivAt_iff_tendsto_slope_zero.1 h
  have hneg : Filter.Tendsto (fun ε : ℝ => -ε) (nhdsWithin 0 {0}ᶜ) (nhdsWithin 0 {0}ᶜ) := by
    refine tendsto_nhdsWithin_iff.2 ⟨?_, ?_⟩
    · have : Filter.Tendsto (fun ε : ℝ => -ε) (nhds 0) (nhds (-0)) := (continuous_neg.tendsto 0)
      rw [neg_zero] at this
      exact this.mono_left nhdsWithin_le_nhds
    · filter_upwards [self_mem_nhdsWithin] with ε hε
      simpa using hε
  have h2 := h1.comp hneg
  have h3 := (h1.add h2).div_const 2
  rw [add_self_div_two] at h3
  refine h3.congr' ?_
  filter_upwards [self_mem_nhdsWithin] with ε hε
  have hε : ε ≠ 0 := hε
  simp only [Function.comp, smul_eq_mul]
  field_simp
  ring

/-- The central difference is exact, whatever the step, when the power is a quadratic in the parameter (as it is in most of
the galaxy fractions and biases). -/
theorem C68_central_exact (a b c t ε : ℝ) (hε : ε ≠ 0) :
    (let f := fun x : ℝ => a * x ^ 2 + b * x + c; HasDerivAt f ((f (t + ε) - f (t + -ε)) / (2 * ε)) t) := by
  have h := (((hasDerivAt_id t).pow 2).const_mul a).add (((hasDerivAt_id t).const_mul b).add_const c)
  refine (h.congr_deriv ?_).congr_of_eventuallyEq (Filter.Eventually.of_forall fun x => ?_)
  · simp only [id]; field_simp; push_cast; ring
  · simp only [Pi.add_apply, Pi.pow_apply, id]; ring

/-- C68 is false when the gradient is asked for at a `theta` that is not where the parameters are: the analytic rows are those of the
old values.  (The driver moves the parameters to `theta` first, `driver.py:925`.) -/
theorem C68_theta_counterexample : ∃ (power : (Fin 1 → ℝ) → Except Unit (Unit → ℝ)) (analytic : (Fin 1 → ℝ) → Fin 1 → Except Unit (Unit → ℝ))
    (theta s : Fin 1 → ℝ) (G : Fin 1 → Unit → ℝ),
    (∀ u : Fin 1 → ℝ, ∃ d, analytic u 0 = .ok (fun _ => d) ∧ ∃ f : ℝ → ℝ, (∀ t, power (fun _ => t) = .ok (fun _ => f t)) ∧ HasDerivAt f d (u 0)) ∧
    (gradCall power analytic [] false (fun _ => 1) theta s).1 = .ok G ∧
    ∀ f : ℝ → ℝ, (∀ t, power (fun _ => t) = .ok (fun _ => f t)) → ¬ HasDerivAt f (G 0 ()) (theta 0) := by
  refine ⟨fun t => .ok (fun _ => t 0 ^ 2), fun s _ => .ok (fun _ => 2 * s 0), fun _ => 1, fun _ => 0, fun _ _ => 0, ?_, ?_, ?_⟩
  · intro u
    refine ⟨2 * u 0, rfl, fun t => t ^ 2, fun t => rfl, ?_⟩
    simpa using hasDerivAt_pow 2 (u 0)
  · simp [gradCall, analyticRows, List.finRange_succ, callAll, assignRows]
  · intro f hf h
    have e : f = fun t => t ^ 2 := by
      funext t
      have := hf t
      simp only [Except.ok.injEq] at this
      exact (congrFun this ()).symm
    rw [e] at h
    have := h.unique (hasDerivAt_pow 2 1)
    norm_num at this

/-- C68 is false for scalar `k`, `mu`: the result is the derivative along the first parameter only, not the gradient. -/
theorem C68_scalar_counterexample : ∃ (power : (Fin 2 → ℝ) → Except Unit (Fin 1 → ℝ)) (analytic : (Fin 2 → ℝ) → Fin 2 → Except Unit (Fin 1 → ℝ))
    (theta : Fin 2 → ℝ) (G : Fin 2 → Fin 1 → ℝ) (l : List ℝ),
    (gradCall power analytic [] false (fun _ => 1) theta theta).1 = .ok G ∧ (gradCallScalar power analytic [] false (fun _ => 1) theta theta).1 = .ok l ∧
      l.length ≠ 2 := by
  refine ⟨fun t => .ok (fun _ => t 0 + 2 * t 1), fun _ i => .ok (fun _ => if i = 0 then 1 else 2), fun _ => 0, fun i _ => if i = 0 then 1 else 2, [1], ?_, ?_, by decide⟩
  · have h : analyticRows (E := Unit) (fun i : Fin 2 => .ok (fun _ : Fin 1 => if i = 0 then (1 : ℝ) else 2)) (fun i => false || decide (i ∈ ([] : List (Fin 2))))
        (List.finRange 2) (fun _ _ => 0) = .ok (fun i _ => if i = 0 then 1 else 2) := by
      simp [analyticRows, List.finRange_succ]
      funext i x
      fin_cases i <;> simp
    simp only [gradCall, h]
    rfl
  · simp [gradCallScalar, gradCall, analyticRows, List.finRange_succ, callAll, assignRows, Except.map]

/-- C68 fails at a bound: the values of the parameters are clipped to `max` when they are read (`parameter.py:191-199`), so at `theta = max`
the step up does nothing.  For a power linear in the parameter with slope `a`, numerical differentiation gives half of the slope,
whatever the step. -/
theorem C68_bound_counterexample (a bound ε : ℝ) (hε : 0 < ε) : ∃ G : Fin 1 → Unit → ℝ,
    (gradCall (E := Unit) (fun t => .ok (fun _ => a * min (t 0) bound)) (fun _ _ => .ok (fun _ => a)) [] true (fun _ => ε) (fun _ => bound)
      (fun _ => bound)).1 = .ok G ∧ G 0 () = a / 2 := by
  refine ⟨fun _ _ => a / 2, ?_, rfl⟩
  simp only [gradCall, analyticRows, List.finRange_succ, List.finRange_zero, callAll, assignRows]
  simp [callAll, assignRows, analyticRows]
  funext j x
  have hj : j = 0 := Subsingleton.elim _ _
  subst hj
  have h1 : min (bound + ε) bound = bound := min_eq_right (by linarith)
  have h2 : min (bound - ε) bound = bound - ε := min_eq_left (by linarith)
  simp [h1, h2]
  field_simp
  ring

example : ∃ G, gradCall (ι := Unit) (E := Unit) (n := 2) (fun t => .ok (fun _ => t 0 ^ 2 + 3 * t 1)) (fun s _ => .ok (fun _ => 2 * s 0)) [1] false
    (fun _ => 1 / 10) (fun _ => 1) (fun _ => 1) = (.ok G, fun _ => 1) ∧ G 0 () = 2 ∧ G 1 () = 3 := by
  refine ⟨fun i _ => if i = 0 then 2 else 3, ?_, rfl, rfl⟩
  have h : analyticRows (E := Unit) (fun _ : Fin 2 => .ok (fun _ : Unit => (2 : ℝ) * 1)) (fun i => false || decide (i ∈ [1])) (List.finRange 2)
      (fun _ _ => 0) = .ok (fun i _ => if i = 0 then 2 else 0) := by
    simp [analyticRows, List.finRange_succ]
    funext i x
    fin_cases i <;> simp
  simp only [gradCall, h]
  simp only [Bool.not_false, if_true, List.map, List.append_eq, List.nil_append, List.cons_append, callAll, assignRows, List.length, List.take, List.drop,
    List.zip, List.zipWith, Prod.mk.injEq, Except.ok.injEq, and_true]
  funext i x
  fin_cases i <;> simp
  norm_num

end

end Verif.Grad
