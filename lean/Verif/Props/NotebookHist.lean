/-
C153, continued: the histograms of `hist_1d`, concrete cases and violations.
-/
import Verif.Props.Notebook
import Mathlib.Algebra.Order.Round
import Mathlib.Data.Real.Archimedean

namespace Verif.Nb

noncomputable section

theorem widths_get (edges : List ℝ) (i : ℕ) (h : i + 1 < edges.length) :
    (widths edges)[i]? = some (edges.getD (i + 1) 0 - edges.getD i 0) := by
  have h0 : i < edges.length := by omega
  rw [widths, List.getElem?_zipWith, List.getElem?_eq_getElem h0, List.getElem?_tail, List.getElem?_eq_getElem h]
  simp [List.getD_eq_getElem?_getD, List.getElem?_eq_getElem h0, List.getElem?_eq_getElem h]

theorem centers_get (edges : List ℝ) (i : ℕ) (h : i + 1 < edges.length) :
    (centers edges)[i]? = some (1 / 2 * (edges.getD (i + 1) 0 + edges.getD i 0)) := by
  have h0 : i < edges.length := by omega
  rw [centers, List.getElem?_zipWith, List.getElem?_eq_getElem h0, List.getElem?_tail, List.getElem?_eq_getElem h]
  simp [List.getD_eq_getElem?_getD, List.getElem?_eq_getElem h0, List.getElem?_eq_getElem h]

theorem widths_length (edges : List ℝ) : (widths edges).length = edges.length - 1 := by simp [widths]
theorem centers_length (edges : List ℝ) : (centers edges).length = edges.length - 1 := by simp [centers]
theorem heights_length (counts : List ℕ) (edges : List ℝ) : (heights counts edges).length = counts.length := by simp [heights]

theorem total_pos (ds : List ℝ) (cs : List ℕ) (hl : ds.length = cs.length) (hd : ∀ d ∈ ds, 0 < d) (hc : 0 < cs.sum) :
    0 < (List.zipWith (fun (d : ℝ) (c : ℕ) => d * (c : ℝ)) ds cs).sum := by
  have nn : ∀ (ds : List ℝ) (cs : List ℕ), (∀ d ∈ ds, 0 < d) → 0 ≤ (List.zipWith (fun (d : ℝ) (c : ℕ) => d * (c : ℝ)) ds cs).sum := by
    intro ds
    induction ds with
    | nil => intro cs _; simp
    | cons d ds ih =>
      intro cs h
      cases cs with
      | nil => simp
      | cons c cs =>
        simp only [List.zipWith_cons_cons, List.sum_cons]
        have := ih cs fun x hx => h x (List.mem_cons_of_mem _ hx)
        have := (h d List.mem_cons_self).le
        positivity
  induction ds generalizing cs with
  | nil => cases cs <;> simp_all
  | cons d ds ih =>
    cases cs with
    | nil => simp at hc
    | cons c cs =>
      simp only [List.zipWith_cons_cons, List.sum_cons] at hc ⊢
      have hd0 := hd d List.mem_cons_self
      have hds := fun x hx => hd x (List.mem_cons_of_mem _ hx)
      by_cases h : 0 < cs.sum
      · have := ih cs (by simpa using hl) hds h
        positivity
      · have hc0 : 0 < c := by omega
        have := nn ds cs hds
        have : (0 : ℝ) < c := by exact_mod_cast hc0
        positivity

theorem sum_scaled (ds : List ℝ) (cs : List ℕ) (T : ℝ) :
    (List.zipWith (fun d h => d * h) ds (cs.map fun (c : ℕ) => (c : ℝ) / T)).sum = (List.zipWith (fun (d : ℝ) (c : ℕ) => d * (c : ℝ)) ds cs).sum / T := by
  induction ds generalizing cs with
  | nil => simp
  | cons d ds ih =>
    cases cs with
    | nil => simp
    | cons c cs => simp only [List.map_cons, List.zipWith_cons_cons, List.sum_cons, ih]; ring

theorem widths_pos (xs : List ℝ) (counts : List ℕ) (edges : List ℝ) (h : IsHistogram xs counts edges) : ∀ d ∈ widths edges, 0 < d := by
  intro d hd
  obtain ⟨i, hi, e⟩ := List.getElem_of_mem hd
  have hi' : i + 1 < edges.length := by rw [widths_length] at hi; omega
  have := widths_get edges i hi'
  rw [List.getElem?_eq_getElem hi, Option.some.injEq, e] at this
  rw [this]; linarith [h.inc i hi']

/-- C153 (histogram): before they are rounded, the bars have area 1 together -/
theorem C153_area (xs : List ℝ) (hne : xs ≠ []) (counts : List ℕ) (edges : List ℝ) (h : IsHistogram xs counts edges) :
    (List.zipWith (fun d y => d * y) (widths edges) (heights counts edges)).sum = 1 := by
  have hs : 0 < counts.sum := by rw [h.all]; exact List.length_pos_iff.2 hne
  have hp := total_pos (widths edges) counts (by rw [widths_length, h.len]; rfl) (widths_pos xs counts edges h) hs
  rw [heights, sum_scaled]
  exact div_self hp.ne'

theorem total_equal (ds : List ℝ) (cs : List ℕ) (w : ℝ) (hl : ds.length = cs.length) (hd : ∀ d ∈ ds, d = w) :
    (List.zipWith (fun (d : ℝ) (c : ℕ) => d * (c : ℝ)) ds cs).sum = w * (cs.sum : ℕ) := by
  induction ds generalizing cs with
  | nil => cases cs <;> simp_all
  | cons d ds ih =>
    cases cs with
    | nil => simp at hl
    | cons c cs =>
      simp only [List.zipWith_cons_cons, List.sum_cons]
      rw [ih cs (by simpa using hl) (fun x hx => hd x (List.mem_cons_of_mem _ hx)), hd d List.mem_cons_self]
      push_cast; ring

/-- C153 (histogram): the histogram of a known parameter with samples and bins of one width has a bar over each bin, to five decimals at its middle and as high as the
fraction of samples in it over its width; the range of the axis is three sigma about the median, lines are at the median and the ends of the one-sigma interval, the curve
is for the mean of the same samples, and the label is the one given, else the parameter's -/
theorem C153_hist_partial (rnd : ℝ → ℝ) (hr : Round5 rnd) (histogram : List ℝ → List ℕ × List ℝ) (lo hi : List ℝ → ℝ) (tex : Labels) (r : Res)
    (name : String) (thin : ℕ) (rename : Option String) (hv : name ∈ r.valid) (hne : samples r thin name ≠ [])
    (counts : List ℕ) (edges : List ℝ) (he : histogram (samples r thin name) = (counts, edges)) (hh : IsHistogram (samples r thin name) counts edges)
    (w : ℝ) (hw : ∀ i, i + 1 < edges.length → edges.getD (i + 1) 0 - edges.getD i 0 = w) :
    ∃ h, hist rnd histogram lo hi tex r name thin rename false = some h ∧ h.bars.length = counts.length ∧
      (∀ i bar, h.bars[i]? = some bar →
        Shows bar.x ((edges.getD i 0 + edges.getD (i + 1) 0) / 2) ∧ bar.width = w ∧
        Shows bar.y (((samples r thin name).countP fun x =>
          decide (edges.getD i 0 ≤ x ∧ (x < edges.getD (i + 1) 0 ∨ i + 1 = counts.length ∧ x = edges.getD (i + 1) 0))) / (samples r thin name).length / w)) ∧
      h.xrange = (r.median name + (r.threeSigma name).1, r.median name + (r.threeSigma name).2) ∧
      h.shapes = [r.median name, r.median name + (r.oneSigma name).1, r.median name + (r.oneSigma name).2] ∧
      h.mu = (samples r thin name).sum / (samples r thin name).length ∧
      h.title = (match rename with | some t => t | none => match tex.lookup name with | some t => t | none => name) := by
  have hc : r.valid.contains name = true := by simpa using hv
  unfold hist
  rw [hc]
  refine ⟨_, rfl, ?_, ?_, rfl, rfl, rfl, ?_⟩
  · simp only [he]
    simp only [List.length_zipWith, List.length_zip, centers_length, heights_length, widths_length, hh.len]
    omega
  · intro i bar hb
    simp only [he] at hb
    have hlen : i < counts.length := by
      have := (List.getElem?_eq_some_iff.1 hb).1
      simp only [List.length_zipWith, List.length_zip, centers_length, heights_length, widths_length, hh.len] at this
      omega
    have hi' : i + 1 < edges.length := by rw [hh.len]; omega
    have hT : (List.zipWith (fun (d : ℝ) (c : ℕ) => d * (c : ℝ)) (widths edges) counts).sum = w * ((samples r thin name).length : ℝ) := by
      rw [total_equal _ _ w (by rw [widths_length, hh.len]; rfl), hh.all]
      intro d hd
      obtain ⟨k, hk, e⟩ := List.getElem_of_mem hd
      have hk' : k + 1 < edges.length := by rw [widths_length] at hk; omega
      have := widths_get edges k hk'
      rw [List.getElem?_eq_getElem hk, Option.some.injEq, e] at this
      rw [this]; exact hw k hk'
    have hy : (heights counts edges)[i]? = some ((counts.getD i 0 : ℝ) / (w * ((samples r thin name).length : ℝ))) := by
      rw [heights, hT, List.getElem?_map, List.getElem?_eq_getElem hlen]
      simp [List.getD_eq_getElem?_getD, List.getElem?_eq_getElem hlen]
    rw [List.getElem?_zipWith, widths_get edges i hi'] at hb
    have hz : ((centers edges).zip (heights counts edges))[i]? =
        some (1 / 2 * (edges.getD (i + 1) 0 + edges.getD i 0), (counts.getD i 0 : ℝ) / (w * ((samples r thin name).length : ℝ))) := by
      rw [List.zip, List.getElem?_zipWith, centers_get edges i hi', hy]
    rw [hz] at hb
    simp only [Option.some.injEq] at hb
    subst hb
    refine ⟨?_, hw i hi', ?_⟩
    · have : (edges.getD i 0 + edges.getD (i + 1) 0) / 2 = 1 / 2 * (edges.getD (i + 1) 0 + edges.getD i 0) := by ring
      rw [this]; exact (hr _).1
    · rw [← hh.count i hlen, div_div, mul_comm ((samples r thin name).length : ℝ) w]
      exact (hr _).1
  · simp only [texOf]
    cases rename <;> cases tex.lookup name <;> rfl

/-- C153 (histogram): with `hide_shapes` the same figure without the lines -/
theorem C153_hist_hidden (rnd : ℝ → ℝ) (histogram : List ℝ → List ℕ × List ℝ) (lo hi : List ℝ → ℝ) (tex : Labels) (r : Res) (name : String) (thin : ℕ)
    (rename : Option String) :
    hist rnd histogram lo hi tex r name thin rename true =
      (hist rnd histogram lo hi tex r name thin rename false).map fun h => { h with shapes := [] } := by
  unfold hist
  cases r.valid.contains name
  · rfl
  · simp only [Bool.not_true, Bool.false_eq_true, if_false, if_true, Option.map_some]

/-- C153 (histogram): an unknown parameter is a `ValueError` -/
theorem C153_hist_refused (rnd : ℝ → ℝ) (histogram : List ℝ → List ℕ × List ℝ) (lo hi : List ℝ → ℝ) (tex : Labels) (r : Res)
    (name : String) (thin : ℕ) (rename : Option String) (hide : Bool) (hv : name ∉ r.valid) :
    hist rnd histogram lo hi tex r name thin rename hide = none := by
  have hc : r.valid.contains name = false := by
    rw [Bool.eq_false_iff]; intro h; exact hv (by simpa using h)
  unfold hist
  rw [hc]; rfl

theorem round5_zero (rnd : ℝ → ℝ) (hr : Round5 rnd) (x : ℝ) (h : |x| < 5 / 10 ^ 6) : rnd x = 0 := by
  obtain ⟨h1, n, hn⟩ := hr x
  have hx := abs_lt.1 h
  have h2 := abs_le.1 h1
  rw [hn] at h2 ⊢
  have hlt : (n : ℝ) < 1 := by
    have : (n : ℝ) / 10 ^ 5 < 1 / 10 ^ 5 := by norm_num at *; linarith
    have := (div_lt_div_iff_of_pos_right (by norm_num : (0 : ℝ) < 10 ^ 5)).1 this
    exact this
  have hgt : (-1 : ℝ) < n := by
    have : (-1 : ℝ) / 10 ^ 5 < (n : ℝ) / 10 ^ 5 := by norm_num at *; linarith
    exact (div_lt_div_iff_of_pos_right (by norm_num : (0 : ℝ) < 10 ^ 5)).1 this
  have h3 : n < 1 := by exact_mod_cast hlt
  have h4 : -1 < n := by exact_mod_cast hgt
  have : n = 0 := by omega
  simp [this]

/-- C153, violation (2): when the bins are wider than 200000 every bar is drawn with height zero -/
theorem C153_flat (rnd : ℝ → ℝ) (hr : Round5 rnd) (histogram : List ℝ → List ℕ × List ℝ) (lo hi : List ℝ → ℝ) (tex : Labels) (r : Res)
    (name : String) (thin : ℕ) (rename : Option String) (hv : name ∈ r.valid) (hne : samples r thin name ≠ [])
    (counts : List ℕ) (edges : List ℝ) (he : histogram (samples r thin name) = (counts, edges)) (hh : IsHistogram (samples r thin name) counts edges)
    (w : ℝ) (hw : ∀ i, i + 1 < edges.length → edges.getD (i + 1) 0 - edges.getD i 0 = w) (hbig : 200000 < w) :
    ∃ h, hist rnd histogram lo hi tex r name thin rename false = some h ∧ ∀ bar ∈ h.bars, bar.y = 0 := by
  have hc : r.valid.contains name = true := by simpa using hv
  unfold hist
  rw [hc]
  refine ⟨_, rfl, ?_⟩
  simp only [he]
  intro bar hb
  obtain ⟨i, hi, e⟩ := List.getElem_of_mem hb
  rw [List.getElem_zipWith] at e
  subst e
  simp only [List.getElem_zip]
  have hlen : i < counts.length := by
    simp only [List.length_zipWith, List.length_zip, centers_length, heights_length, widths_length, hh.len] at hi
    omega
  apply round5_zero rnd hr
  have hT : (List.zipWith (fun (d : ℝ) (c : ℕ) => d * (c : ℝ)) (widths edges) counts).sum = w * ((samples r thin name).length : ℝ) := by
    rw [total_equal _ _ w (by rw [widths_length, hh.len]; rfl), hh.all]
    intro d hd
    obtain ⟨k, hk, e⟩ := List.getElem_of_mem hd
    have hk' : k + 1 < edges.length := by rw [widths_length] at hk; omega
    have := widths_get edges k hk'
    rw [List.getElem?_eq_getElem hk, Option.some.injEq, e] at this
    rw [this]; exact hw k hk'
  have hn : (0 : ℝ) < (samples r thin name).length := by
    have := List.length_pos_iff.2 hne
    exact_mod_cast this
  have hcl : counts[i] ≤ (samples r thin name).length := by
    rw [← hh.all]; exact List.le_sum_of_mem (List.getElem_mem hlen)
  have hcl' : (counts[i] : ℝ) ≤ (samples r thin name).length := by exact_mod_cast hcl
  have hw0 : 0 < w := by linarith
  simp only [heights, hT, List.getElem_map]
  rw [abs_of_nonneg (by positivity), div_lt_iff₀ (by positivity)]
  nlinarith

/-- C153, violation (3): the curve of the normal distribution runs over all samples exactly when none is negative -/
theorem C153_curve (rnd : ℝ → ℝ) (histogram : List ℝ → List ℕ × List ℝ) (lo hi : List ℝ → ℝ) (tex : Labels) (r : Res) (name : String) (thin : ℕ)
    (rename : Option String) (hide : Bool) (h : Hist) (hh : hist rnd histogram lo hi tex r name thin rename hide = some h)
    (hlh : lo (samples r thin name) ≤ hi (samples r thin name)) :
    ∃ a b, h.curve[0]? = some a ∧ h.curve[499]? = some b ∧ h.curve.length = 500 ∧
      (a ≤ lo (samples r thin name) ∧ hi (samples r thin name) ≤ b ↔ 0 ≤ lo (samples r thin name)) := by
  unfold hist at hh
  split at hh
  · simp at hh
  · simp only [Option.some.injEq] at hh
    subst hh
    refine ⟨9 / 10 * lo (samples r thin name), 11 / 10 * hi (samples r thin name), ?_, ?_, by simp [linspace], ?_⟩
    · simp only [linspace, List.getElem?_map]
      rw [List.getElem?_range (by norm_num)]
      simp
    · simp only [linspace, List.getElem?_map]
      rw [List.getElem?_range (by norm_num)]
      simp only [Option.map_some, Option.some.injEq]
      push_cast
      ring
    · constructor
      · intro ⟨h1, _⟩; linarith
      · intro h0; constructor <;> linarith

/-! ### Concrete cases -/

/-- two free parameters and one constrained, two walkers of four iterations, burn-in of one -/
def exRes : Res where
  free := ["b1", "fs"]
  constrained := ["F"]
  chain n := if n = "b1" then [[9, 1, 2, 3], [9, 3, 2, 1]] else [[0, -1, 0, -1], [0, -2, 0, -2]]
  iterations := 4
  burnin := 1
  median _ := 2
  oneSigma _ := (-1, 1)
  threeSigma _ := (-3, 3)

/-- a rounding to five decimals exists -/
def exRnd (x : ℝ) : ℝ := (round (x * 10 ^ 5) : ℤ) / 10 ^ 5

theorem exRnd_ok : Round5 exRnd := by
  intro x
  refine ⟨?_, _, rfl⟩
  unfold exRnd
  have := abs_sub_round (x * 10 ^ 5)
  have e : ((round (x * 10 ^ 5) : ℤ) : ℝ) / 10 ^ 5 - x = -((x * 10 ^ 5 - round (x * 10 ^ 5)) / 10 ^ 5) := by field_simp; ring
  rw [e, abs_neg, abs_div, abs_of_pos (by norm_num : (0 : ℝ) < 10 ^ 5), div_le_iff₀ (by norm_num)]
  norm_num at *; linarith

example : ∀ n ∈ ["b1", "F"], n ∈ exRes.valid ∧ Rect (exRes.chain n) exRes.iterations := by
  intro n hn
  simp only [List.mem_cons, List.not_mem_nil, or_false] at hn
  rcases hn with rfl | rfl <;> simp [exRes, Res.valid, Rect]

/-- three walkers are cut to two for `max_walkers = 1` -/
example : (walkerLines [0] 1 0 [[1], [2], [3]]).length = 2 := by simp [walkerLines]

/-- samples 1, 2, 3, 3 in two bins of width one -/
example : IsHistogram [1, 2, 3, 3] [1, 3] [1, 2, 3] where
  len := rfl
  inc := by
    intro i hi
    simp at hi
    have : i = 0 ∨ i = 1 := by omega
    rcases this with rfl | rfl <;> norm_num
  all := rfl
  count := by
    intro i hi
    simp at hi
    have : i = 0 ∨ i = 1 := by omega
    rcases this with rfl | rfl <;> simp [List.countP_cons] <;> norm_num

example : samples exRes 2 "b1" = [1, 3, 3, 1] := by
  simp [samples, exRes, strided]

example : (triangle exRes (some ["b1", "F"]) 5) = some [(1, .histogram "b1" 1 false false), (2, .hidden),
    (3, .contour "b1" "F" 5 true true), (4, .histogram "F" 1 true false)] := by
  simp [triangle, exRes, Res.valid, loopI, loopJ, cell, List.range'_succ]

/-- the condition of `C153_kde` holds, for example, of a sum over the samples of a function of the distance -/
example (g : ℝ → ℝ) (data : List (ℝ × ℝ)) (p : ℝ × ℝ) :
    (fun (d : List (ℝ × ℝ)) (p : ℝ × ℝ) => (d.map fun q => g ((q.1 - p.1) ^ 2 + (q.2 - p.2) ^ 2)).sum) (data.map Prod.swap) p.swap =
      (fun (d : List (ℝ × ℝ)) (p : ℝ × ℝ) => (d.map fun q => g ((q.1 - p.1) ^ 2 + (q.2 - p.2) ^ 2)).sum) data p := by
  simp only [List.map_map]
  congr 2
  funext q
  simp [add_comm]

end

end Verif.Nb
