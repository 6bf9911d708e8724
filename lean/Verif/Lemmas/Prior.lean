import Verif.Spec.Prior
import Mathlib.Tactic.Linarith
import Mathlib.Tactic.FieldSimp

namespace Verif.Priors
noncomputable section
open Classical Flt

/-- the prior object described by the attributes, with flag `a` -/
def mkDist (p : Par) (a : Bool) : Option Dist :=
  match p.priorName with
  | none => none
  | some .uniform => some (.uniform p.lower p.upper a)
  | some .normal => some (.normal p.mu p.sigma)

/-- cached objects agree with the attributes, and their flags satisfy `S` -/
structure Coh (S : Bool → Prop) (p : Par) : Prop where
  hmin : ∀ b, p.minB = some b → ∃ a, S a ∧ b = ⟨false, p.min.getD ninf, a⟩
  hmax : ∀ b, p.maxB = some b → ∃ a, S a ∧ b = ⟨true, p.max.getD pinf, a⟩
  hdist : ∀ d, p.dist = some d → ∃ a, S a ∧ d = mkDist p a

theorem Coh.readMin {S p} (h : Coh S p) (hf : S false) : ∃ a, S a ∧ p.readMin = ⟨false, p.min.getD ninf, a⟩ := by
  unfold Par.readMin
  cases e : p.minB with
  | none => exact ⟨false, hf, rfl⟩
  | some b => simpa using h.hmin b e

theorem Coh.readMax {S p} (h : Coh S p) (hf : S false) : ∃ a, S a ∧ p.readMax = ⟨true, p.max.getD pinf, a⟩ := by
  unfold Par.readMax
  cases e : p.maxB with
  | none => exact ⟨false, hf, rfl⟩
  | some b => simpa using h.hmax b e

theorem Coh.readDist {S p} (h : Coh S p) (hf : S false) : ∃ a, S a ∧ p.readDist = mkDist p a := by
  unfold Par.readDist
  cases e : p.dist with
  | none => exact ⟨false, hf, rfl⟩
  | some b => simpa using h.hdist b e

theorem Coh.setAnalytic {S p} (h : Coh S p) (hf : S false) (b : Bool) (hb : S b) : Coh S (p.setAnalytic b) := by
  obtain ⟨a1, -, e1⟩ := h.readMin hf
  obtain ⟨a2, -, e2⟩ := h.readMax hf
  obtain ⟨a3, -, e3⟩ := h.readDist hf
  refine ⟨?_, ?_, ?_⟩
  · intro c hc
    refine ⟨b, hb, ?_⟩
    simp only [Par.setAnalytic, e1, Option.some.injEq] at hc
    exact hc.symm
  · intro c hc
    refine ⟨b, hb, ?_⟩
    simp only [Par.setAnalytic, e2, Option.some.injEq] at hc
    exact hc.symm
  · intro c hc
    simp only [Par.setAnalytic] at hc
    split at hc
    next hu =>
      refine ⟨b, hb, ?_⟩
      rw [e3] at hc
      simp only [mkDist, hu, Option.some.injEq] at hc
      simp only [mkDist, Par.setAnalytic, hu]
      exact hc.symm
    next hu =>
      obtain ⟨a, ha, e⟩ := h.hdist c hc
      exact ⟨a, ha, e⟩

theorem Coh.step {S p} (h : Coh S p) (hf : S false) (o : Op) (ho : ∀ b, o = .setAnalytic b → S b) : Coh S (p.step o) := by
  cases o with
  | setValue v => exact ⟨h.hmin, h.hmax, h.hdist⟩
  | getValue =>
    simp only [Par.step, Par.getValue]
    split
    · exact h
    · exact ⟨h.hmin, h.hmax, h.hdist⟩
  | evalPrior =>
    obtain ⟨a1, s1, e1⟩ := h.readMin hf
    obtain ⟨a2, s2, e2⟩ := h.readMax hf
    obtain ⟨a3, s3, e3⟩ := h.readDist hf
    refine ⟨?_, ?_, ?_⟩
    · intro b hb
      simp only [Par.step, Par.touch, e1, Option.some.injEq] at hb
      exact ⟨a1, s1, hb.symm⟩
    · intro b hb
      simp only [Par.step, Par.touch, e2, Option.some.injEq] at hb
      exact ⟨a2, s2, hb.symm⟩
    · intro b hb
      simp only [Par.step, Par.touch, e3, Option.some.injEq] at hb
      exact ⟨a3, s3, hb.symm⟩
  | setAnalytic b => exact h.setAnalytic hf b (ho b rfl)
  | setMin v =>
    simp only [Par.step, Par.setMin]
    split
    · exact h
    · exact ⟨by simp, h.hmax, h.hdist⟩
  | setMax v =>
    simp only [Par.step, Par.setMax]
    split
    · exact h
    · exact ⟨h.hmin, by simp, h.hdist⟩
  | setPriorName v =>
    simp only [Par.step, Par.setPriorName]
    split
    · exact h
    · exact ⟨h.hmin, h.hmax, by simp⟩
  | setLower v =>
    simp only [Par.step, Par.setLower]
    split
    · exact h
    · exact ⟨h.hmin, h.hmax, by simp⟩
  | setUpper v =>
    simp only [Par.step, Par.setUpper]
    split
    · exact h
    · exact ⟨h.hmin, h.hmax, by simp⟩
  | setMu v =>
    simp only [Par.step, Par.setMu]
    split
    · exact h
    · exact ⟨h.hmin, h.hmax, by simp⟩
  | setSigma v =>
    simp only [Par.step, Par.setSigma]
    split
    · exact h
    · exact ⟨h.hmin, h.hmax, by simp⟩

theorem Coh.run {S p} (h : Coh S p) (hf : S false) (ops : List Op)
    (ho : ∀ b, Op.setAnalytic b ∈ ops → S b) : Coh S (p.run ops) := by
  induction ops generalizing p with
  | nil => exact h
  | cons o os ih =>
    exact ih (h.step hf o (fun b e => ho b (e ▸ List.mem_cons_self))) (fun b hb => ho b (List.mem_cons_of_mem _ hb))

theorem coh_new {S : Bool → Prop} (hf : S false) (v u va mi ma pn l up m s a) (ha : S a) :
    Coh S (Par.new v u va mi ma pn l up m s a) :=
  Coh.setAnalytic ⟨by simp, by simp, by simp⟩ hf a ha

/-- hard bound: below -/
theorem hardMin (k : ℝ) (m x : Flt) (hm : m ≠ nan) (hx : x ≠ nan) :
    Bound.logPdf ⟨false, m, false⟩ k x = if m.toE ≤ x.toE then fin 0 else ninf := by
  cases m <;> cases x <;> simp_all [Bound.logPdf, Bound.signed, sub, add, neg, lt, toE]
  rename_i a b
  by_cases h : a ≤ b
  · rw [if_neg (by linarith), if_pos h]
  · rw [if_pos (by linarith), if_neg h]

/-- hard bound: above -/
theorem hardMax (k : ℝ) (m x : Flt) (hm : m ≠ nan) (hx : x ≠ nan) :
    Bound.logPdf ⟨true, m, false⟩ k x = if x.toE ≤ m.toE then fin 0 else ninf := by
  cases m <;> cases x <;> simp_all [Bound.logPdf, Bound.signed, sub, add, neg, lt, toE]
  rename_i a b
  by_cases h : b ≤ a
  · rw [if_neg (by linarith), if_pos h]
  · rw [if_pos (by linarith), if_neg h]

theorem le_iff (x y : Flt) (hx : x ≠ nan) (hy : y ≠ nan) : le x y = true ↔ x.toE ≤ y.toE := by
  cases x <;> cases y <;> simp_all [le, toE]

theorem hardUniform (k l u : ℝ) (h : l < u) (x : Flt) (hx : x ≠ nan) :
    Dist.logPdf k (.uniform l u false) x =
      if (l : EReal) ≤ x.toE ∧ x.toE ≤ (u : EReal) then fin (Real.log (1 / (u - l))) else ninf := by
  have hw : 0 < u - l := by linarith
  cases x with
  | nan => exact absurd rfl hx
  | ninf => simp [Dist.logPdf, scipyUniformLogPdf, hw, toE, h]
  | pinf => simp [Dist.logPdf, scipyUniformLogPdf, hw, toE, h]
  | fin a =>
    have e1 : 0 ≤ (a - l) / (u - l) ↔ l ≤ a := by
      rw [le_div_iff₀ hw]; constructor <;> intro <;> linarith
    have e2 : (a - l) / (u - l) ≤ 1 ↔ a ≤ u := by
      rw [div_le_iff₀ hw]; constructor <;> intro <;> linarith
    simp only [Dist.logPdf, scipyUniformLogPdf, hw, toE, if_true, e1, e2, EReal.coe_le_coe_iff, Bool.not_false]
    rw [one_div, Real.log_inv]

theorem normalLog (m s x : ℝ) (hs : 0 < s) :
    -0.5 * Real.log (2 * Real.pi * s ^ 2) - 0.5 * ((x - m) / s) ^ 2 =
      Real.log (Real.exp (-(x - m) ^ 2 / (2 * s ^ 2)) / Real.sqrt (2 * Real.pi * s ^ 2)) := by
  have hp : 0 < 2 * Real.pi * s ^ 2 := by positivity
  rw [Real.log_div (Real.exp_ne_zero _) (by positivity), Real.log_exp, Real.log_sqrt hp.le]
  have hs' : s ≠ 0 := hs.ne'
  field_simp
  ring

theorem add_fin0 (x : Flt) : add (fin 0) x = x := by cases x <;> simp [add]

theorem add_ninf (x : Flt) (h1 : x ≠ nan) (h2 : x ≠ pinf) : add ninf x = ninf := by
  cases x <;> simp_all [add]

theorem add_ninf' (x : Flt) (h1 : x ≠ nan) (h2 : x ≠ pinf) : add x ninf = ninf := by
  cases x <;> simp_all [add]

end
end Verif.Priors
