/-
C83: the density-momentum spectrum of the Halo-Zel'dovich model is the derivative of the density spectrum in `ln a`.
-/
import Verif.Props.Hzpt
import Mathlib.Analysis.SpecialFunctions.ExpDeriv
import Mathlib.Analysis.Calculus.Deriv.Add
import Mathlib.Analysis.Calculus.Deriv.Mul
import Mathlib.Tactic.FieldSimp
import Mathlib.Tactic.LinearCombination

namespace Verif.Hzpt

noncomputable section

/-- What a newly made collection (without interpolation) returns for one wavenumber. -/
theorem fresh_eval (E : Env) (hE : E.s80 ≠ 0) (G : Grid) (hG : ∀ s ∈ G.s8s, 0 < s) (K : Consts) (key : Key) (s f b1 k : ℝ) (hs : 0 < s) :
    ((Models.new E s f false).eval E G K key b1 [k]).2 = some [total K key s f b1 k ((zelAt E s true).zeldovich E key.kind k)] := by
  rw [((Inv.new E hE G s f hs false).eval hG K key b1 [k]).2]
  simp [zelValues]

theorem law_deriv (P : Pars) (σ : ℝ → ℝ) (t f : ℝ) (hσ : HasDerivAt σ (f * σ t) t) (hp : 0 < σ t) (j : Fin 5) :
    HasDerivAt (fun u => P.law (σ u) j) (P.dlaw f (σ t) j) t := by
  have h0 : (0 : ℝ) < σ t / (4 / 5) := by positivity
  have h1 : HasDerivAt (fun u => σ u / (4 / 5)) (f * σ t / (4 / 5)) t := hσ.div_const _
  have h2 := (h1.rpow_const (p := P.alpha j) (Or.inl h0.ne')).const_mul (P.amp j)
  refine h2.congr_deriv ?_
  unfold Pars.dlaw Pars.law
  have h3 : (σ t / (4 / 5)) ^ P.alpha j = (σ t / (4 / 5)) ^ (P.alpha j - 1) * (σ t / (4 / 5)) := by
    rw [← Real.rpow_add_one h0.ne']; congr 1; ring
  rw [h3]
  ring

/-- The chain rule for the Padé form of the broadband term. -/
theorem pade_deriv (c : ℝ → Fin 5 → ℝ) (d : Fin 5 → ℝ) (t k : ℝ) (h : ∀ j, HasDerivAt (fun u => c u j) (d j) t) :
    HasDerivAt (fun u => pade (c u) k) (padeDeriv (c t) d k) t := by
  have hN : (1 + (k * c t 1) ^ 2) ≠ 0 := by positivity
  have hD : (1 + (k * c t 3) ^ 2 + (k * c t 4) ^ 4) ≠ 0 := by positivity
  have q1 : HasDerivAt (fun u => (k * c u 1) ^ 2) (2 * (k * c t 1) * (k * d 1)) t := by
    exact (((h 1).const_mul k).pow 2).congr_deriv (by norm_num)
  have q2 : HasDerivAt (fun u => (k * c u 2) ^ 2) (2 * (k * c t 2) * (k * d 2)) t := by
    exact (((h 2).const_mul k).pow 2).congr_deriv (by norm_num)
  have q3 : HasDerivAt (fun u => (k * c u 3) ^ 2) (2 * (k * c t 3) * (k * d 3)) t := by
    exact (((h 3).const_mul k).pow 2).congr_deriv (by norm_num)
  have q4 : HasDerivAt (fun u => (k * c u 4) ^ 4) (4 * (k * c t 4) ^ 3 * (k * d 4)) t := by
    exact (((h 4).const_mul k).pow 4).congr_deriv (by norm_num)
  have hF := ((hasDerivAt_const t (1 : ℝ)).div (q1.const_add 1) hN).const_sub 1
  have hnum := (hF.mul (h 0)).mul (q2.const_add 1)
  have hden := (q3.const_add 1).add q4
  have := hnum.div hden hD
  refine this.congr_deriv ?_
  simp only [padeDeriv, Pi.add_apply, Pi.mul_apply, Pi.div_apply]
  have e1 : (1 + k ^ 2 * c t 1 ^ 2) ≠ 0 := by positivity
  have e2 : (1 + k ^ 2 * c t 3 ^ 2 + (k ^ 2) ^ 2 * c t 4 ^ 4) ≠ 0 := by positivity
  have r1 : 1 + (k * c t 1) ^ 2 = 1 + k ^ 2 * c t 1 ^ 2 := by ring
  have r2 : 1 + (k * c t 3) ^ 2 + (k * c t 4) ^ 4 = 1 + k ^ 2 * c t 3 ^ 2 + (k ^ 2) ^ 2 * c t 4 ^ 4 := by ring
  rw [r1, r2]
  field_simp
  ring

theorem list_sum_deriv {ι : Type} (l : List ι) (g : ι → ℝ → ℝ) (g' : ι → ℝ) (t : ℝ) (h : ∀ i ∈ l, HasDerivAt (g i) (g' i) t) :
    HasDerivAt (fun u => (l.map fun i => g i u).sum) (l.map g').sum t := by
  induction l with
  | nil => simpa using hasDerivAt_const t (0 : ℝ)
  | cons a l ih =>
    simp only [List.map_cons, List.sum_cons]
    exact (h a List.mem_cons_self).add (ih fun i hi => h i (List.mem_cons_of_mem _ hi))

/-- The normalisation factor grows like twice the growth rate. -/
theorem norm_deriv (s80 : ℝ) (σ : ℝ → ℝ) (t f : ℝ) (hσ : HasDerivAt σ (f * σ t) t) :
    HasDerivAt (fun u => (σ u / s80) ^ 2) (2 * f * (σ t / s80) ^ 2) t := by
  refine ((hσ.div_const s80).pow 2).congr_deriv ?_
  simp
  ring

theorem fprim_deriv (E : Env) (A : Arr) (c : ℝ → ℝ) (t f k : ℝ) (i : ℕ) (hc : HasDerivAt c (2 * f * c t) t) :
    HasDerivAt (fun u => fprim E (A.scale (c u)) k i .p00) (-f * fprim E (A.scale (c t)) k i .p01) t := by
  simp only [fprim, Arr.scale]
  have h1 : HasDerivAt (fun u => -(1 / 2) * k ^ 2 * (A.xx i * c u + A.yy i * c u)) (-(1 / 2) * k ^ 2 * (A.xx i * (2 * f * c t) + A.yy i * (2 * f * c t))) t :=
    ((hc.const_mul _).add (hc.const_mul _)).const_mul _
  have h2 : HasDerivAt (fun u => -k ^ 2 * (A.sq * c u)) (-k ^ 2 * (A.sq * (2 * f * c t))) t := (hc.const_mul _).const_mul _
  refine ((h1.exp.sub h2.exp).const_mul _).congr_deriv ?_
  ring

theorem fsec_deriv (E : Env) (A : Arr) (c : ℝ → ℝ) (t f k : ℝ) (n i : ℕ) (hn : n ≠ 0) (hc : HasDerivAt c (2 * f * c t) t) :
    HasDerivAt (fun u => fsec E (A.scale (c u)) k n i .p00) (-f * fsec E (A.scale (c t)) k n i .p01) t := by
  simp only [fsec, Arr.scale]
  have h1 : HasDerivAt (fun u => -(1 / 2) * k ^ 2 * (A.xx i * c u + A.yy i * c u)) (-(1 / 2) * k ^ 2 * (A.xx i * (2 * f * c t) + A.yy i * (2 * f * c t))) t :=
    ((hc.const_mul _).add (hc.const_mul _)).const_mul _
  have h2 : HasDerivAt (fun u => (k * (A.yy i * c u)) ^ n) (n * (k * (A.yy i * c t)) ^ (n - 1) * (k * (A.yy i * (2 * f * c t)))) t :=
    ((hc.const_mul _).const_mul _).pow n
  refine ((h2.const_mul _).mul h1.exp).congr_deriv ?_
  obtain ⟨m, rfl⟩ := Nat.exists_eq_succ_of_ne_zero hn
  simp only [Nat.succ_eq_add_one, Nat.add_sub_cancel, pow_succ]
  ring

theorem fftlog_deriv (E : Env) (A : Arr) (c : ℝ → ℝ) (t f k : ℝ) (hc : HasDerivAt c (2 * f * c t) t) :
    HasDerivAt (fun u => fftlog E (A.scale (c u)) k .p00) (2 * f * fftlog E (A.scale (c t)) k .p01) t := by
  unfold fftlog
  rw [← List.sum_map_mul_left]
  refine list_sum_deriv _ _ _ _ fun n _ => ?_
  have hi := list_sum_deriv (List.range 1024)
    (fun i u => E.w n k i * (if n = 0 then fprim E (A.scale (c u)) k i .p00 else fsec E (A.scale (c u)) k n i .p00))
    (fun i => -f * (E.w n k i * (if n = 0 then fprim E (A.scale (c t)) k i .p01 else fsec E (A.scale (c t)) k n i .p01))) t (by
      intro i _
      by_cases hn : n = 0
      · simp only [hn, if_true]
        refine ((fprim_deriv E A c t f k i hc).const_mul _).congr_deriv ?_
        ring
      · simp only [hn, if_false]
        refine ((fsec_deriv E A c t f k n i hn hc).const_mul _).congr_deriv ?_
        ring)
  rw [List.sum_map_mul_left] at hi
  refine (hi.const_mul _).congr_deriv ?_
  simp only [factor]
  ring

theorem q3_scale (E : Env) (s k : ℝ) : q3 E s k = (s / E.s80) ^ 4 * (1 / (10 * Real.pi ^ 2) * k ^ 4 * E.quad fun q => E.plin0 q * E.plin0 q / q / q) := by
  unfold q3
  have : (fun q => plin E s q * plin E s q / q / q) = fun q => (s / E.s80) ^ 4 * (E.plin0 q * E.plin0 q / q / q) := by
    funext q; unfold plin; ring
  rw [this, E.quad_smul]
  ring

theorem lowK_deriv (E : Env) (S : ℝ) (σ : ℝ → ℝ) (t f k : ℝ) (hσ : HasDerivAt σ (f * σ t) t) :
    HasDerivAt (fun u => lowKApprox E (S * (σ u / E.s80) ^ 2) (σ u) k .p00)
      (2 * f * lowKApprox E (S * (σ t / E.s80) ^ 2) (σ t) k .p01 + 3 * f * k ^ 4 * (S * (σ t / E.s80) ^ 2) ^ 2 * plin E (σ t) k) t := by
  have hc := norm_deriv E.s80 σ t f hσ
  have e : (fun u => lowKApprox E (S * (σ u / E.s80) ^ 2) (σ u) k .p00) = fun u =>
      (1 - k ^ 2 * (S * (σ u / E.s80) ^ 2) + 1 / 2 * k ^ 4 * (S * (σ u / E.s80) ^ 2) ^ 2) * ((σ u / E.s80) ^ 2 * E.plin0 k) +
      1 / 2 * (((σ u / E.s80) ^ 2) ^ 2 * (1 / (10 * Real.pi ^ 2) * k ^ 4 * E.quad fun q => E.plin0 q * E.plin0 q / q / q)) := by
    funext u
    simp only [lowKApprox, q3_scale, plin]
    ring
  rw [e]
  have a1 := hc.const_mul S
  have a2 := (((a1.const_mul (k ^ 2)).const_sub 1).add ((a1.pow 2).const_mul (1 / 2 * k ^ 4))).mul (hc.mul_const (E.plin0 k))
  have a3 := (((hc.pow 2).mul_const (1 / (10 * Real.pi ^ 2) * k ^ 4 * E.quad fun q => E.plin0 q * E.plin0 q / q / q))).const_mul (1 / 2)
  refine (a2.add a3).congr_deriv ?_
  simp only [lowKApprox, q3_scale, plin, Pi.add_apply, Pi.pow_apply]
  push_cast
  ring

/-- C83: if sigma8 grows with `ln a` at the logarithmic rate `f`, the density-momentum spectrum (with growth rate `f`) is the derivative of the density spectrum, for every
wavenumber `k ≥ 0.005` — for any cosmology, any mesh, and any constants shared by the two broadband terms. -/
theorem C83_derivative_partial (E : Env) (hE : E.s80 ≠ 0) (G : Grid) (hG : ∀ s ∈ G.s8s, 0 < s) (K : Consts) (hK : K.c0 = K.c1) (k : ℝ) (hk : 5 / 1000 ≤ k) (σ : ℝ → ℝ) (t f : ℝ)
    (hσ : HasDerivAt σ (f * σ t) t) (hp : 0 < σ t) (P00 P01 : ℝ → ℝ)
    (h0 : ∀ s > 0, ((Models.new E s f false).eval E G K .P00 0 [k]).2 = some [P00 s])
    (h1 : ∀ s > 0, ((Models.new E s f false).eval E G K .P01 0 [k]).2 = some [P01 s]) :
    HasDerivAt (fun u => P00 (σ u)) (P01 (σ t)) t := by
  have ev : ∀ᶠ u in nhds t, 0 < σ u := hσ.continuousAt.eventually (lt_mem_nhds hp)
  have c0 : ∀ s > 0, P00 s = total K .P00 s f 0 k ((zelAt E s true).zeldovich E .p00 k) := by
    intro s hs
    have := (h0 s hs).symm.trans (fresh_eval E hE G hG K .P00 s f 0 k hs)
    simp only [Option.some.injEq, List.cons.injEq, and_true] at this
    exact this
  have c1 : P01 (σ t) = total K .P01 (σ t) f 0 k ((zelAt E (σ t) true).zeldovich E .p01 k) := by
    have := (h1 _ hp).symm.trans (fresh_eval E hE G hG K .P01 (σ t) f 0 k hp)
    simp only [Option.some.injEq, List.cons.injEq, and_true] at this
    exact this
  have hz : ∀ s kind, (zelAt E s true).zeldovich E kind k = fftlog E ((arr0 E).scale ((s / E.s80) ^ 2)) k kind := by
    intro s kind
    simp only [Zel.zeldovich, Zel.eval, zelAt, Option.map_some, Option.getD_some, k0Low]
    exact if_pos (Or.inl hk)
  rw [c1]
  have : HasDerivAt (fun u => total K .P00 (σ u) f 0 k ((zelAt E (σ u) true).zeldovich E .p00 k))
      (total K .P01 (σ t) f 0 k ((zelAt E (σ t) true).zeldovich E .p01 k)) t := by
    simp only [total, hz, hK]
    exact (pade_deriv _ _ t k fun j => law_deriv K.c1 σ t f hσ hp j).add (fftlog_deriv E _ _ t f k (norm_deriv E.s80 σ t f hσ))
  refine this.congr_of_eventuallyEq ?_
  filter_upwards [ev] with u hu
  exact c0 _ hu

/-- the shipped constants are shared -/
theorem shipped_shared : shipped.c0 = shipped.c1 := rfl

/-- C83, what the code does below `k = 0.005`: the derivative of the density spectrum exceeds the density-momentum spectrum by `3 f k⁴ σ⁴ Plin` (`σ²` the displacement
variance), as the second-order term of the low-k approximation is missing there. -/
theorem C83_lowk_defect (E : Env) (hE : E.s80 ≠ 0) (G : Grid) (hG : ∀ s ∈ G.s8s, 0 < s) (K : Consts) (hK : K.c0 = K.c1) (k : ℝ) (hk : k < 5 / 1000) (σ : ℝ → ℝ) (t f : ℝ)
    (hσ : HasDerivAt σ (f * σ t) t) (hp : 0 < σ t) (P00 P01 : ℝ → ℝ)
    (h0 : ∀ s > 0, ((Models.new E s f false).eval E G K .P00 0 [k]).2 = some [P00 s])
    (h1 : ∀ s > 0, ((Models.new E s f false).eval E G K .P01 0 [k]).2 = some [P01 s]) :
    HasDerivAt (fun u => P00 (σ u)) (P01 (σ t) + 3 * f * k ^ 4 * (E.disp0 * (σ t / E.s80) ^ 2) ^ 2 * ((σ t / E.s80) ^ 2 * E.plin0 k)) t := by
  have ev : ∀ᶠ u in nhds t, 0 < σ u := hσ.continuousAt.eventually (lt_mem_nhds hp)
  have c0 : ∀ s > 0, P00 s = total K .P00 s f 0 k ((zelAt E s true).zeldovich E .p00 k) := by
    intro s hs
    have := (h0 s hs).symm.trans (fresh_eval E hE G hG K .P00 s f 0 k hs)
    simp only [Option.some.injEq, List.cons.injEq, and_true] at this
    exact this
  have c1 : P01 (σ t) = total K .P01 (σ t) f 0 k ((zelAt E (σ t) true).zeldovich E .p01 k) := by
    have := (h1 _ hp).symm.trans (fresh_eval E hE G hG K .P01 (σ t) f 0 k hp)
    simp only [Option.some.injEq, List.cons.injEq, and_true] at this
    exact this
  have hz : ∀ s kind, (zelAt E s true).zeldovich E kind k = lowKApprox E (E.disp0 * (s / E.s80) ^ 2) s k kind := by
    intro s kind
    have : ¬ (5 / 1000 ≤ k ∨ true = false) := by simp [not_le.2 hk]
    simp only [Zel.zeldovich, Zel.eval, zelAt, Option.map_some, Option.getD_some, k0Low, Arr.scale, arr0]
    exact if_neg this
  rw [c1]
  have : HasDerivAt (fun u => total K .P00 (σ u) f 0 k ((zelAt E (σ u) true).zeldovich E .p00 k))
      (total K .P01 (σ t) f 0 k ((zelAt E (σ t) true).zeldovich E .p01 k) + 3 * f * k ^ 4 * (E.disp0 * (σ t / E.s80) ^ 2) ^ 2 * ((σ t / E.s80) ^ 2 * E.plin0 k)) t := by
    simp only [total, hz, hK]
    refine ((pade_deriv _ _ t k fun j => law_deriv K.c1 σ t f hσ hp j).add (lowK_deriv E E.disp0 σ t f k hσ)).congr_deriv ?_
    simp only [plin]
    ring
  refine this.congr_of_eventuallyEq ?_
  filter_upwards [ev] with u hu
  exact c0 _ hu

/-- an environment with unit linear power and displacement -/
def unitEnv : Env := ⟨1, fun _ => 1, fun _ => 1, fun _ => 0, fun _ => 0, 1, fun _ _ _ => 0, fun _ => 0, fun c f => by simp⟩

/-- C83, violation: below `k = 0.005` the density-momentum spectrum is not the derivative of the density spectrum (shipped constants, exponentially growing sigma8). -/
theorem C83_lowk_counterexample (G : Grid) (hG : ∀ s ∈ G.s8s, 0 < s) : ∃ (P00 P01 : ℝ → ℝ),
    (∀ s > 0, ((Models.new unitEnv s 1 false).eval unitEnv G shipped .P00 0 [1 / 1000]).2 = some [P00 s]) ∧
    (∀ s > 0, ((Models.new unitEnv s 1 false).eval unitEnv G shipped .P01 0 [1 / 1000]).2 = some [P01 s]) ∧
    HasDerivAt Real.exp (1 * Real.exp 0) 0 ∧ ¬ HasDerivAt (fun u => P00 (Real.exp u)) (P01 (Real.exp 0)) 0 := by
  have hE : unitEnv.s80 ≠ 0 := one_ne_zero
  have a0 : ∀ s > 0, ((Models.new unitEnv s 1 false).eval unitEnv G shipped .P00 0 [1 / 1000]).2 = _ := fun s hs => fresh_eval unitEnv hE G hG shipped .P00 s 1 0 (1 / 1000) hs
  have a1 : ∀ s > 0, ((Models.new unitEnv s 1 false).eval unitEnv G shipped .P01 0 [1 / 1000]).2 = _ := fun s hs => fresh_eval unitEnv hE G hG shipped .P01 s 1 0 (1 / 1000) hs
  have he : HasDerivAt Real.exp (1 * Real.exp 0) 0 := by simpa using Real.hasDerivAt_exp 0
  refine ⟨_, _, a0, a1, he, fun hd => ?_⟩
  have hd2 := C83_lowk_defect unitEnv hE G hG shipped shipped_shared (1 / 1000) (by norm_num) Real.exp 0 1 he (Real.exp_pos 0) _ _ a0 a1
  have := hd.unique hd2
  simp only [Real.exp_zero, unitEnv] at this
  norm_num at this

/-- a case meeting the hypotheses: sigma8 growing like `a^(1/2)`, k = 0.1 -/
example (G : Grid) (hG : ∀ s ∈ G.s8s, 0 < s) : ∃ P00 P01 : ℝ → ℝ,
    (∀ s > 0, ((Models.new unitEnv s (1 / 2) false).eval unitEnv G shipped .P00 0 [1 / 10]).2 = some [P00 s]) ∧
    HasDerivAt (fun u => P00 (Real.exp (u / 2))) (P01 (Real.exp (1 / 2))) 1 := by
  have hE : unitEnv.s80 ≠ 0 := one_ne_zero
  have a0 : ∀ s > 0, ((Models.new unitEnv s (1 / 2) false).eval unitEnv G shipped .P00 0 [1 / 10]).2 = _ := fun s hs => fresh_eval unitEnv hE G hG shipped .P00 s _ 0 _ hs
  have a1 : ∀ s > 0, ((Models.new unitEnv s (1 / 2) false).eval unitEnv G shipped .P01 0 [1 / 10]).2 = _ := fun s hs => fresh_eval unitEnv hE G hG shipped .P01 s _ 0 _ hs
  have he : HasDerivAt (fun u => Real.exp (u / 2)) ((1 / 2) * Real.exp (1 / 2)) 1 := by
    refine ((hasDerivAt_id (1 : ℝ)).div_const 2).exp.congr_deriv ?_
    simp [mul_comm]
  exact ⟨_, _, a0, C83_derivative_partial unitEnv hE G hG shipped shipped_shared (1 / 10) (by norm_num) _ 1 _ he (Real.exp_pos _) _ _ a0 a1⟩

end

end Verif.Hzpt
