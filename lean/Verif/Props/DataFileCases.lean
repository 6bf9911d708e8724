/-
C118: an example, and where the property fails.
-/
import Verif.Props.DataFileTrip

namespace Verif.DataFile

noncomputable section

/-- `float` on the ends of the names of the example. -/
def parseEx (s : List Char) : Option ℝ := if s = ['0'] then some 0 else if s = ['2'] then some 2 else none

/-- A monopole and a quadrupole in two bins, with errors. -/
def poles : List Meas :=
  [{ kind := .pole, k := [1 / 10, 2 / 10], mu := .none, power := [5000, 3000], error := .arr [50, 30], ell := some 0, columns := none },
   { kind := .pole, k := [1 / 10, 2 / 10], mu := .none, power := [4000, 1000], error := .arr [90, 80], ell := some 2, columns := none }]

/-- C118 (example): the hypotheses of the round trip hold for a monopole and a quadrupole in two bins. -/
theorem C118_case (rnd : ℝ → ℤ) : ∃ f, write rnd poles = .ok f ∧ read parseEx ["pole_0".toList, "Pole_2".toList] f = .ok (poles.map (Meas.rounded rnd)) := by
  refine C118_roundtrip rnd parseEx .pole true 2 (by norm_num) poles (by simp [poles]) ?_ _ rfl ?_
  · intro m hm
    simp only [poles, List.mem_cons, List.not_mem_nil, or_false] at hm
    rcases hm with rfl | rfl
    · exact ⟨rfl, rfl, rfl, rfl, ⟨_, rfl, rfl⟩, Or.inl rfl⟩
    · exact ⟨rfl, rfl, rfl, rfl, ⟨_, rfl, rfl⟩, Or.inl rfl⟩
  · intro i name m hn hm
    match i with
    | 0 =>
      simp only [List.getElem?_cons_zero, Option.some.injEq, poles] at hn hm
      subst hn hm
      exact ⟨by decide, 0, by rw [show (parts "pole_0".toList).getLastD [] = ['0'] by decide]; simp [parseEx], rfl⟩
    | 1 =>
      simp only [List.getElem?_cons_succ, List.getElem?_cons_zero, Option.some.injEq, poles] at hn hm
      subst hn hm
      exact ⟨by decide, 2, by rw [show (parts "Pole_2".toList).getLastD [] = ['2'] by decide]; simp [parseEx], rfl⟩
    | n + 2 => simp at hn

/-- C118, limits (1): six digits are not all: a bin just beyond a limit `kmax = 0.4` lies within it after it was written and read. -/
theorem C118_digits_counterexample {rnd : ℝ → ℤ} (h : Nearest rnd) : (4000001 / 10 ^ 7 : ℝ) > 4 / 10 ∧ round6 rnd (4000001 / 10 ^ 7) = 4 / 10 := by
  refine ⟨by norm_num, ?_⟩
  unfold round6
  rw [if_neg (by norm_num), abs_of_pos (by norm_num)]
  have hlog : Int.log 10 (4000001 / 10 ^ 7 : ℝ) = -1 := by
    have hp : (0 : ℝ) < 4000001 / 10 ^ 7 := by norm_num
    have a1 : -1 ≤ Int.log 10 (4000001 / 10 ^ 7 : ℝ) := by
      rw [← Int.zpow_le_iff_le_log (by norm_num) hp]
      norm_num
    have a2 : Int.log 10 (4000001 / 10 ^ 7 : ℝ) < 0 := by
      rw [← Int.lt_zpow_iff_log_lt (by norm_num) hp]
      norm_num
    omega
  rw [hlog]
  have hx : (4000001 / 10 ^ 7 : ℝ) / 10 ^ (-1 - 5 : ℤ) = 4000001 / 10 := by norm_num
  rw [hx]
  have hn := h (4000001 / 10)
  have : rnd (4000001 / 10) = 400000 := by
    rw [abs_le] at hn
    have h1 : ((399999 : ℤ) : ℝ) < (rnd (4000001 / 10) : ℝ) := by push_cast; linarith [hn.1]
    have h2 : (rnd (4000001 / 10) : ℝ) < ((400001 : ℤ) : ℝ) := by push_cast; linarith [hn.2]
    have := Int.cast_lt.1 h1
    have := Int.cast_lt.1 h2
    omega
  rw [this]
  norm_num

/-- A monopole without errors. -/
def noError : Meas := { kind := .pole, k := [1 / 10], mu := .none, power := [5000], error := .none, ell := some 0, columns := none }

/-- C118, violation (2): the columns are those of the first measurement: if it has no errors, the errors of the others are dropped without notice. -/
theorem C118_first_counterexample (rnd : ℝ → ℤ) : ∃ f, write rnd [noError, noError.setError [50]] = .ok f ∧ "error" ∉ f.columns ∧ (noError.setError [50]).error = .arr [50] := by
  refine ⟨_, rfl, (by show "error" ∉ ["k", "power"]; decide), rfl⟩

/-- C118, violation (3): the list of columns is remembered: if it was looked up before the errors were set, as they are when a covariance matrix is loaded, the errors are not written. -/
theorem C118_stale_counterexample (rnd : ℝ → ℤ) : ∃ f, write rnd [noError.getColumns.2.setError [50]] = .ok f ∧ "error" ∉ f.columns ∧ (noError.getColumns.2.setError [50]).error = .arr [50] ∧
    ∃ f', write rnd [noError.setError [50]] = .ok f' ∧ "error" ∈ f'.columns := by
  refine ⟨_, rfl, (by show "error" ∉ ["k", "power"]; decide), rfl, _, rfl, (by show "error" ∈ ["k", "power", "error"]; decide)⟩

/-- C118, violation (4): a list in which the first measurement has errors and another has none is not written at all. -/
theorem C118_missing_counterexample (rnd : ℝ → ℤ) : write rnd [noError.setError [50], noError] = .error .typeError := by
  unfold write
  have hc : (noError.setError [50]).getColumns.1 = ["k", "power", "error"] := by rfl
  simp only [hc]
  rfl

end

end Verif.DataFile
