/-
C67: the default constraints of the galaxy model encode the identities of a halo catalogue.

The specification is a catalogue of haloes counted one by one; nothing in it refers to the expressions of the code.
-/
import Verif.Model.GalParams
import Mathlib.Tactic.Ring
import Mathlib.Tactic.FieldSimp
import Mathlib.Tactic.Linarith
import Mathlib.Tactic.Positivity
import Mathlib.Algebra.Order.Field.Basic
import Mathlib.Algebra.Order.Ring.Rat
import Mathlib.Data.Rat.Cast.Order
import Mathlib.Algebra.BigOperators.Group.List.Basic

namespace Verif.Params

open Gal

/-! ### Specification: counting galaxies in haloes -/

/-- A catalogue: one entry per halo hosting a central galaxy, the number of satellites in it. -/
abbrev Catalogue := List Nat

namespace Catalogue

/-- Sum of a quantity over the haloes. -/
def total (c : Catalogue) (q : Nat → Rat) : Rat := (c.map q).sum

def nCentrals (c : Catalogue) : Rat := c.total (fun _ => 1)
def nSatellites (c : Catalogue) : Rat := c.total (fun n => n)
/-- Type B centrals have at least one satellite in their halo. -/
def nCentralsB (c : Catalogue) : Rat := c.total (fun n => if 1 ≤ n then 1 else 0)
/-- Type A satellites are alone with their central, type B satellites have a companion satellite. -/
def nSatellitesA (c : Catalogue) : Rat := c.total (fun n => if n = 1 then 1 else 0)
def nSatellitesB (c : Catalogue) : Rat := c.total (fun n => if 2 ≤ n then n else 0)
/-- Haloes with several satellites. -/
def nMultiple (c : Catalogue) : Rat := c.total (fun n => if 2 ≤ n then 1 else 0)
def nGalaxies (c : Catalogue) : Rat := c.nCentrals + c.nSatellites
/-- Pairs of a central and a satellite in the same halo. -/
def pairsCS (c : Catalogue) : Rat := c.total (fun n => n)
/-- Ordered pairs of satellites in the same halo. -/
def pairsSS (c : Catalogue) : Rat := c.total (fun n => n * (n - 1))

end Catalogue

/-- The parameters are those of a catalogue in a volume `V`: the unconstrained fractions and the number density. -/
structure Describes (v : Gal → Rat) (c : Catalogue) (V : Rat) : Prop where
  fs : v fs = c.nSatellites / c.nGalaxies
  fsB : v fsB = c.nSatellitesB / c.nSatellites
  mult : v Nsat_mult = c.nSatellitesB / c.nMultiple
  nbar : v nbar = c.nGalaxies / V
  vol : 0 < V
  hasMultiple : 0 < c.nMultiple

/-- The value of a constraint at given values of the other parameters. -/
def constraint (cbrt : Rat → Rat) (v : Gal → Rat) (n : Gal) : Option Rat :=
  (galExpr cbrt n).map fun e => e.eval (e.deps.map v)

/-! ### Counting lemmas -/

theorem total_add (c : Catalogue) (p q : Nat → Rat) : c.total (fun n => p n + q n) = c.total p + c.total q := by
  induction c with
  | nil => simp [Catalogue.total]
  | cons a c ih =>
    simp only [Catalogue.total, List.map_cons, List.sum_cons] at ih ⊢
    rw [ih]; ring

theorem total_mul (c : Catalogue) (x : Rat) (q : Nat → Rat) : c.total (fun n => x * q n) = x * c.total q := by
  induction c with
  | nil => simp [Catalogue.total]
  | cons a c ih =>
    simp only [Catalogue.total, List.map_cons, List.sum_cons] at ih ⊢
    rw [ih]; ring

theorem total_congr (c : Catalogue) (p q : Nat → Rat) (h : ∀ n, p n = q n) : c.total p = c.total q := by
  rw [show p = q from funext h]

theorem total_nonneg (c : Catalogue) (q : Nat → Rat) (h : ∀ n, 0 ≤ q n) : 0 ≤ c.total q := by
  induction c with
  | nil => simp [Catalogue.total]
  | cons a c ih =>
    simp only [Catalogue.total, List.map_cons, List.sum_cons] at ih ⊢
    have := h a
    linarith

theorem sats_split (c : Catalogue) : c.nSatellites = c.nSatellitesA + c.nSatellitesB := by
  rw [Catalogue.nSatellites, Catalogue.nSatellitesA, Catalogue.nSatellitesB, ← total_add]
  refine total_congr _ _ _ fun n => ?_
  rcases n with _ | _ | n
  · simp
  · simp
  · simp

theorem centB_split (c : Catalogue) : c.nCentralsB = c.nSatellitesA + c.nMultiple := by
  rw [Catalogue.nCentralsB, Catalogue.nSatellitesA, Catalogue.nMultiple, ← total_add]
  refine total_congr _ _ _ fun n => ?_
  rcases n with _ | _ | n
  · simp
  · simp
  · simp

theorem satB_ge (c : Catalogue) : c.nMultiple ≤ c.nSatellitesB := by
  have h : 0 ≤ c.total (fun n => (if 2 ≤ n then (n : Rat) - 1 else 0)) := total_nonneg _ _ fun n => by
    split
    · have : (2 : Rat) ≤ n := by exact_mod_cast ‹2 ≤ n›
      linarith
    · rfl
  have e : c.nSatellitesB = c.nMultiple + c.total (fun n => (if 2 ≤ n then (n : Rat) - 1 else 0)) := by
    rw [Catalogue.nSatellitesB, Catalogue.nMultiple, ← total_add]
    refine total_congr _ _ _ fun n => ?_
    split <;> simp
  linarith

theorem cent_ge (c : Catalogue) : c.nMultiple ≤ c.nCentrals := by
  have h : 0 ≤ c.total (fun n => (if 2 ≤ n then (0 : Rat) else 1)) := total_nonneg _ _ fun n => by split <;> simp
  have e : c.nCentrals = c.nMultiple + c.total (fun n => (if 2 ≤ n then (0 : Rat) else 1)) := by
    rw [Catalogue.nCentrals, Catalogue.nMultiple, ← total_add]
    refine total_congr _ _ _ fun n => ?_
    split <;> simp
  linarith

theorem satA_nonneg (c : Catalogue) : 0 ≤ c.nSatellitesA := total_nonneg _ _ fun n => by split <;> simp

variable {v : Gal → Rat} {c : Catalogue} {V : Rat} (cbrt : Rat → Rat)

/-- The positive numbers of a catalogue with multiple haloes. -/
theorem Describes.pos (h : Describes v c V) :
    0 < c.nMultiple ∧ 0 < c.nSatellitesB ∧ 0 < c.nSatellites ∧ 0 < c.nCentrals ∧ 0 < c.nGalaxies ∧ 0 < c.nCentralsB := by
  have h0 := h.hasMultiple
  have h1 := satB_ge c
  have h2 := cent_ge c
  have h3 := satA_nonneg c
  have h4 := sats_split c
  have h5 := centB_split c
  refine ⟨h0, by linarith, by linarith, by linarith, ?_, by linarith⟩
  unfold Catalogue.nGalaxies
  linarith

/-! ### C67 -/

/-- **C67, `fcB`**: the constraint gives the fraction of the centrals that have a satellite. -/
theorem C67_fcB (h : Describes v c V) : constraint cbrt v fcB = some (c.nCentralsB / c.nCentrals) := by
  obtain ⟨h0, h1, h2, h3, h4, h5⟩ := h.pos
  simp only [constraint, galExpr, Option.map_some, List.map]
  rw [h.fs, h.fsB, h.mult]
  congr 1
  have e : (1 : Rat) - c.nSatellites / c.nGalaxies = c.nCentrals / c.nGalaxies := by
    field_simp
    unfold Catalogue.nGalaxies
    ring
  rw [e]
  rw [centB_split]
  have hs := sats_split c
  field_simp
  rw [hs]
  ring

/-- **C67, `b1_cB`**: the mean, over the haloes with satellites, of the bias of the halo, where haloes with one satellite have the bias of type A
satellites and haloes with several that of type B satellites. -/
theorem C67_b1_cB (h : Describes v c V) :
    constraint cbrt v b1_cB =
      some (c.total (fun n => if n = 1 then v b1_sA else if 2 ≤ n then v b1_sB else 0) / c.nCentralsB) := by
  obtain ⟨h0, h1, h2, h3, h4, h5⟩ := h.pos
  simp only [constraint, galExpr, Option.map_some, List.map]
  rw [h.fsB, h.mult]
  congr 1
  have e : c.total (fun n => if n = 1 then v b1_sA else if 2 ≤ n then v b1_sB else 0) =
      v b1_sA * c.nSatellitesA + v b1_sB * c.nMultiple := by
    rw [Catalogue.nSatellitesA, Catalogue.nMultiple, ← total_mul, ← total_mul, ← total_add]
    refine total_congr _ _ _ fun n => ?_
    rcases n with _ | _ | n
    · simp
    · simp
    · simp
  rw [e]
  have hs := sats_split c
  have hb := centB_split c
  have d : (1 : Rat) + c.nSatellitesB / c.nSatellites * (1 / (c.nSatellitesB / c.nMultiple) - 1) = c.nCentralsB / c.nSatellites := by
    rw [hb]
    field_simp
    rw [hs]
    ring
  rw [d]
  have d2 : ((1 : Rat) - c.nSatellitesB / c.nSatellites) = c.nSatellitesA / c.nSatellites := by
    field_simp
    rw [hs]
    ring
  rw [d2]
  field_simp
  rw [hb]
  ring

/-- **C67, total biases**: if `fcB`, `b1_cB`, `b1_c`, `b1_s` have the values of their constraints, then `b1_c` and `b1_s` are the mean
biases of the centrals and of the satellites, and the constraint of `b1` gives the mean bias over all galaxies, where a central without
satellites has bias `b1_cA`, one with satellites the mean `b1_cB`. -/
theorem C67_b1 (h : Describes v c V) (hfcB : constraint cbrt v fcB = some (v fcB))
    (hc : constraint cbrt v b1_c = some (v b1_c)) (hs : constraint cbrt v b1_s = some (v b1_s)) :
    v b1_c = c.total (fun n => if n = 0 then v b1_cA else v b1_cB) / c.nCentrals ∧
    v b1_s = c.total (fun n => if n = 1 then v b1_sA else n * v b1_sB) / c.nSatellites ∧
    constraint cbrt v b1 =
      some (c.total (fun n => (if n = 0 then v b1_cA else v b1_cB) + (if n = 1 then v b1_sA else n * v b1_sB)) / c.nGalaxies) := by
  obtain ⟨h0, h1, h2, h3, h4, h5⟩ := h.pos
  rw [C67_fcB cbrt h] at hfcB
  simp only [constraint, galExpr, Option.map_some, List.map, Option.some.injEq] at hfcB hc hs ⊢
  have ec : c.total (fun n => if n = 0 then v b1_cA else v b1_cB) = v b1_cA * (c.nCentrals - c.nCentralsB) + v b1_cB * c.nCentralsB := by
    have : c.total (fun n => if n = 0 then v b1_cA else v b1_cB) + v b1_cA * c.nCentralsB = v b1_cA * c.nCentrals + v b1_cB * c.nCentralsB := by
      rw [Catalogue.nCentralsB, Catalogue.nCentrals, ← total_mul, ← total_mul, ← total_mul, ← total_add, ← total_add]
      refine total_congr _ _ _ fun n => ?_
      rcases n with _ | n
      · simp
      · simp; ring
    linarith
  have es : c.total (fun n => if n = 1 then v b1_sA else n * v b1_sB) = v b1_sA * c.nSatellitesA + v b1_sB * c.nSatellitesB := by
    rw [Catalogue.nSatellitesA, Catalogue.nSatellitesB, ← total_mul, ← total_mul, ← total_add]
    refine total_congr _ _ _ fun n => ?_
    rcases n with _ | _ | n
    · simp
    · simp
    · simp; ring
  have hbc : v b1_c = c.total (fun n => if n = 0 then v b1_cA else v b1_cB) / c.nCentrals := by
    rw [← hc, ← hfcB, ec]; field_simp
  have hbs : v b1_s = c.total (fun n => if n = 1 then v b1_sA else n * v b1_sB) / c.nSatellites := by
    rw [← hs, h.fsB, es]; field_simp; rw [sats_split c]; ring
  refine ⟨hbc, hbs, ?_⟩
  rw [total_add, hbc, hbs, h.fs]
  have e : (1 : Rat) - c.nSatellites / c.nGalaxies = c.nCentrals / c.nGalaxies := by
    field_simp
    unfold Catalogue.nGalaxies
    ring
  rw [e]
  generalize c.total (fun n => if n = 0 then v b1_cA else v b1_cB) = A
  generalize c.total (fun n => if n = 1 then v b1_sA else n * v b1_sB) = B
  field_simp

/-- **C67, `NcBs`**: the one-halo amplitude of type B centrals and satellites is `f1h_cBs` times the volume times the number of
central-satellite pairs in common haloes over the number of all pairs. -/
theorem C67_NcBs (h : Describes v c V) (hfcB : constraint cbrt v fcB = some (v fcB)) :
    constraint cbrt v NcBs = some (v f1h_cBs * (V * c.pairsCS / (c.nCentralsB * c.nSatellites))) := by
  obtain ⟨h0, h1, h2, h3, h4, h5⟩ := h.pos
  have hV := h.vol
  rw [C67_fcB cbrt h] at hfcB
  have hp : c.pairsCS = c.nSatellites := rfl
  simp only [constraint, galExpr, Option.map_some, List.map, Option.some.injEq] at hfcB ⊢
  rw [← hfcB, h.fs, h.nbar, hp]
  have e : (1 : Rat) - c.nSatellites / c.nGalaxies = c.nCentrals / c.nGalaxies := by
    field_simp
    unfold Catalogue.nGalaxies
    ring
  rw [e]
  field_simp

/-- **C67, `NsBsB`**: `f1h_sBsB` times the volume times the number of haloes with several satellites over the square of the number of type B
satellites; if `f1h_sBsB` is the mean number of ordered satellite pairs in such a halo, this is the volume times the number of pairs of
satellites in common haloes over the number of all pairs. -/
theorem C67_NsBsB (h : Describes v c V) (hfcB : constraint cbrt v fcB = some (v fcB)) :
    constraint cbrt v NsBsB = some (v f1h_sBsB * (V * c.nMultiple / c.nSatellitesB ^ 2)) ∧
    (v f1h_sBsB = c.pairsSS / c.nMultiple → constraint cbrt v NsBsB = some (V * c.pairsSS / c.nSatellitesB ^ 2)) := by
  obtain ⟨h0, h1, h2, h3, h4, h5⟩ := h.pos
  have hV := h.vol
  have key : constraint cbrt v NsBsB = some (v f1h_sBsB * (V * c.nMultiple / c.nSatellitesB ^ 2)) := by
    rw [C67_fcB cbrt h] at hfcB
    simp only [constraint, galExpr, Option.map_some, List.map, Option.some.injEq] at hfcB ⊢
    rw [← hfcB, h.fs, h.nbar, h.fsB]
    have e : (1 : Rat) - c.nSatellites / c.nGalaxies = c.nCentrals / c.nGalaxies := by
      field_simp
      unfold Catalogue.nGalaxies
      ring
    have d2 : ((1 : Rat) - c.nSatellitesB / c.nSatellites) = c.nSatellitesA / c.nSatellites := by
      field_simp
      rw [sats_split c]
      ring
    rw [e, d2, centB_split]
    field_simp
    ring
  refine ⟨key, fun hf => ?_⟩
  rw [key, hf]
  congr 1
  field_simp

/-- **C67, dilations**: `alpha`, `epsilon` and `F_AP` determine `alpha_par` and `alpha_perp` and conversely: `alpha_perp = alpha/(1+epsilon)`,
`alpha_par = alpha (1+epsilon)²`, `F_AP = (1+epsilon)³`. -/
theorem C67_dilations (hp : 0 < v alpha_perp) (hq : 0 < v alpha_par) (a e F : Rat)
    (h1 : cbrt (v alpha_perp ^ 2 * v alpha_par) ^ 3 = v alpha_perp ^ 2 * v alpha_par)
    (h2 : cbrt (v alpha_par / v alpha_perp) ^ 3 = v alpha_par / v alpha_perp)
    (ha : constraint cbrt v alpha = some a) (he : constraint cbrt v epsilon = some e) (hF : constraint cbrt v F_AP = some F) :
    F = (1 + e) ^ 3 ∧ v alpha_perp = a / (1 + e) ∧ v alpha_par = a * (1 + e) ^ 2 := by
  simp only [constraint, galExpr, Option.map_some, List.map, Option.some.injEq] at ha he hF
  have he' : 1 + e = cbrt (v alpha_par / v alpha_perp) := by rw [← he]; ring
  rw [← he'] at h2
  rw [ha] at h1
  have hpos : 0 < (1 + e) ^ 3 := by rw [h2]; positivity
  have h1e : 0 < 1 + e := by
    by_contra hn
    have : (1 + e) ^ 3 ≤ 0 := by
      have := mul_nonneg (neg_nonneg.2 (not_lt.1 hn)) (sq_nonneg (1 + e))
      nlinarith
    linarith
  have hap : 0 < a := by
    by_contra hn
    have h3 : 0 < a ^ 3 := by rw [h1]; positivity
    have := mul_nonneg (neg_nonneg.2 (not_lt.1 hn)) (sq_nonneg a)
    nlinarith
  have hperp : v alpha_perp = a / (1 + e) := by
    have hcube : (v alpha_perp * (1 + e)) ^ 3 = a ^ 3 := by
      rw [mul_pow, h2, h1]; field_simp
    have := (pow_left_inj₀ (by positivity) hap.le (by norm_num : (3 : Nat) ≠ 0)).1 hcube
    rw [← this]; field_simp
  refine ⟨by rw [h2, ← hF], hperp, ?_⟩
  have : v alpha_par = v alpha_perp * (1 + e) ^ 3 := by rw [h2]; field_simp
  rw [this, hperp]
  field_simp

/-- A catalogue of seven haloes with 0, 0, 0, 1, 1, 2 and 3 satellites, and the parameters describing it. -/
def catExample : Catalogue := [0, 0, 0, 1, 1, 2, 3]

def valExample : Gal → Rat
  | fs => 1 / 2
  | fsB => 5 / 7
  | Nsat_mult => 5 / 2
  | nbar => 14 / 100
  | fcB => 4 / 7
  | _ => 2

example : Describes valExample catExample 100 ∧ constraint cbrt valExample fcB = some (valExample fcB) := by
  refine ⟨⟨?_, ?_, ?_, ?_, by norm_num, ?_⟩, ?_⟩ <;>
    simp [valExample, catExample, Catalogue.nSatellites, Catalogue.nGalaxies, Catalogue.nCentrals, Catalogue.nSatellitesB, Catalogue.nMultiple,
      Catalogue.total, constraint, galExpr] <;> norm_num

example : ∃ (cb : Rat → Rat) (w : Gal → Rat), 0 < w alpha_perp ∧ 0 < w alpha_par ∧ w alpha_par ≠ w alpha_perp ∧
    cb (w alpha_perp ^ 2 * w alpha_par) ^ 3 = w alpha_perp ^ 2 * w alpha_par ∧ cb (w alpha_par / w alpha_perp) ^ 3 = w alpha_par / w alpha_perp :=
  have h : ¬ alpha_perp = alpha_par := by decide
  ⟨fun _ => 2, fun n => if n = alpha_par then 8 else 1, by simp [h], by simp, by simp [h], by simp [h]; norm_num, by simp [h]; norm_num⟩

end Verif.Params
