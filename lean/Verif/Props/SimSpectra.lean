/-
C130: velocity spectra from simulations.
-/
import Verif.Lemmas.SimSpectra
import Mathlib.Topology.Order.Basic
import Mathlib.Topology.Instances.Real.Lemmas
import Mathlib.Topology.Algebra.Order.LiminfLimsup
import Mathlib.Tactic.Positivity

namespace Verif.SimSpectra

open Verif.Interp Spec

noncomputable section

theorem foldl_min_le (l : List ℝ) (a : ℝ) (h : ∀ b ∈ l, a ≤ b) : l.foldl min a = a := by
  induction l with
  | nil => rfl
  | cons b l ih =>
    rw [List.foldl_cons, min_eq_left (h b List.mem_cons_self)]
    exact ih fun c hc => h c (List.mem_cons_of_mem _ hc)

theorem amin_ascending (l : List ℝ) (h : Ascending l) : amin l = l.headD 0 := by
  cases l with
  | nil => rfl
  | cons a l =>
    have := h.1
    rw [List.pairwise_cons] at this
    exact foldl_min_le l a fun b hb => (this.1 b hb).le

theorem amax_pairwise (l : List ℝ) (h : l.Pairwise (· < ·)) : amax l = l.getLastD 0 := by
  cases l with
  | nil => rfl
  | cons a l =>
    unfold amax
    simp only [List.tail_cons, List.headD_cons]
    induction l generalizing a with
    | nil => rfl
    | cons b l ih =>
      rw [List.pairwise_cons] at h
      rw [List.foldl_cons, max_eq_right (h.1 b List.mem_cons_self).le, ih b h.2]
      simp

theorem amax_ascending (l : List ℝ) (h : Ascending l) : amax l = l.getLastD 0 := amax_pairwise l h.1

/-- What is known of an object made from well-formed tables, whatever was assigned since. -/
structure Holds (o : Obj) (F : Fiducial) (K : Kind) (data : List Sim) (zs ks : List ℝ) (sigma8_0 : ℝ) : Prop where
  kind : o.kind = K
  norm : o.sigma8_0 = sigma8_0
  grid : o.table.grid = [zs, ks]
  method : o.table.method = .linear
  bounds : o.table.boundsError = true
  zsA : Ascending zs
  ksA : Ascending ks
  entry : ∀ i j : ℕ, i < zs.length → j < ks.length →
    o.table.table [(i : ℤ), (j : ℤ)] = simulated data i j / (F.D (zs.getD i 0) ^ 2 * F.plin (ks.getD j 0) * F.f (zs.getD i 0) ^ growthPower K)

theorem make_holds (F : Fiducial) (K : Kind) (data : List Sim) (zs ks : List ℝ) (h : GoodData data zs ks) (lin : Lin) (z s f : ℝ) (o : Obj)
    (hm : Obj.make F K data lin z s f = some o) : Holds o F K data zs ks lin.sigma8 ∧ o.z = z ∧ o.sigma8_z = s ∧ o.f = f ∧ o.lin = lin := by
  obtain ⟨rows, I, h1, h2, h3, h4, h5, h6⟩ := table_good F K data zs ks h
  unfold Obj.make at hm
  split_ifs at hm
  simp only [h1, h2, Option.some.injEq] at hm
  subst hm
  exact ⟨⟨rfl, rfl, h3, h4, h5, h.zs_ascending, h.ks_ascending, h6⟩, rfl, rfl, rfl, rfl⟩

/-- C130: an object can be made exactly for a linear spectrum at redshift 0. -/
theorem C130_make (F : Fiducial) (K : Kind) (data : List Sim) (zs ks : List ℝ) (h : GoodData data zs ks) (lin : Lin) (z s f : ℝ) :
    (∃ o, Obj.make F K data lin z s f = some o) ↔ lin.redshift = 0 := by
  obtain ⟨rows, I, h1, h2, -⟩ := table_good F K data zs ks h
  unfold Obj.make
  by_cases hr : lin.redshift = 0
  · rw [if_neg (by simpa using hr)]
    simp only [h1, h2]
    exact ⟨fun _ => hr, fun _ => ⟨_, rfl⟩⟩
  · rw [if_pos hr]
    exact ⟨fun ⟨o, ho⟩ => by simp at ho, fun h => absurd h hr⟩

theorem Holds.zs_eq {o F K data zs ks s} (h : Holds o F K data zs ks s) : o.zs = zs := by
  unfold Obj.zs
  rw [h.grid]
  rfl

theorem Holds.good {o F K data zs ks s} (h : Holds o F K data zs ks s) : ∀ g ∈ o.table.grid, GoodGrid g := by
  rw [h.grid]
  intro g hg
  rcases List.mem_cons.1 hg with rfl | hg
  · exact h.zsA
  · rw [List.mem_singleton] at hg
    subst hg
    exact h.ksA

theorem inDomain_iff (zs ks : List ℝ) (hz : Ascending zs) (hk : Ascending ks) (z k : ℝ) :
    InDomain [zs, ks] [z, k] ↔ (zs.headD 0 ≤ z ∧ z ≤ zs.getLastD 0) ∧ (ks.headD 0 ≤ k ∧ k ≤ ks.getLastD 0) := by
  have e : ∀ (g : List ℝ), Ascending g → ∀ a : ℝ, (∃ h : g ≠ [], g.head h ≤ a ∧ a ≤ g.getLast h) ↔ (g.headD 0 ≤ a ∧ a ≤ g.getLastD 0) := by
    intro g hg a
    have hne : g ≠ [] := by
      rintro rfl
      have := hg.2
      simp at this
    have e1 : g.headD 0 = g.head hne := by
      cases g with
      | nil => exact absurd rfl hne
      | cons a l => rfl
    have e2 : g.getLastD 0 = g.getLast hne := by rw [List.getLastD_eq_getLast?, List.getLast?_eq_some_getLast hne]; rfl
    rw [e1, e2]
    exact ⟨fun ⟨_, h⟩ => h, fun h => ⟨hne, h⟩⟩
  unfold InDomain
  rw [List.forall₂_cons, List.forall₂_cons, e zs hz, e ks hk]
  simp

/-- the value of the table at a point -/
def at_ (o : Obj) (z k : ℝ) : Option ℝ := evalPoint o.table .linear [z, k]

theorem scaled_eq {o F K data zs ks s} (h : Holds o F K data zs ks s) (amp z : ℝ) (k : Arg) :
    ((∃ a ∈ k.list, ¬ ((zs.headD 0 ≤ z ∧ z ≤ zs.getLastD 0) ∧ (ks.headD 0 ≤ a ∧ a ≤ ks.getLastD 0))) → scaled o amp z k = .domainError) ∧
    ((∀ a ∈ k.list, (zs.headD 0 ≤ z ∧ z ≤ zs.getLastD 0) ∧ (ks.headD 0 ≤ a ∧ a ≤ ks.getLastD 0)) →
      scaled o amp z k = unpacked (k.list.map fun a => (at_ o z a).map (· * (amp * (o.lin.P a / s ^ 2))))) := by
  have hl : ∀ x ∈ (k.list.map fun a => [z, a]), x.length = o.table.grid.length := by
    intro x hx
    obtain ⟨a, _, rfl⟩ := List.mem_map.1 hx
    rw [h.grid]
    rfl
  obtain ⟨d1, d2⟩ := C90_domain o.table h.good h.bounds (k.list.map fun a => [z, a]) hl none
  rw [h.grid] at d1 d2
  constructor
  · rintro ⟨a, ha, hn⟩
    unfold scaled
    rw [d1.2 ⟨[z, a], List.mem_map.2 ⟨a, ha, rfl⟩, fun hd => hn ((inDomain_iff zs ks h.zsA h.ksA z a).1 hd)⟩]
  · intro hall
    unfold scaled
    rw [d2 (by
      intro x hx
      obtain ⟨a, ha, rfl⟩ := List.mem_map.1 hx
      exact (inDomain_iff zs ks h.zsA h.ksA z a).2 (hall a ha))]
    simp only [Option.getD_none, h.method, h.norm]
    congr 1
    rw [List.map_map, List.zipWith_map_left]
    have : ∀ l : List ℝ, List.zipWith (fun x a => Option.map (fun y => y * (amp * (o.lin.P a / s ^ 2))) (((fun x => evalPoint o.table .linear x) ∘ fun a => [z, a]) x)) l l =
        l.map fun a => (at_ o z a).map (· * (amp * (o.lin.P a / s ^ 2))) := by
      intro l
      rw [List.zipWith_self]
      rfl
    exact this _

theorem at_cell {o F K data zs ks s} (h : Holds o F K data zs ks s) (z k : ℝ) (i j : ℕ) (hi : i + 1 < zs.length) (hj : j + 1 < ks.length)
    (hz : zs.getD i 0 ≤ z ∧ z ≤ zs.getD (i + 1) 0) (hk : ks.getD j 0 ≤ k ∧ k ≤ ks.getD (j + 1) 0) (R : ℕ → ℕ → ℝ)
    (hR : ∀ a b, R a b = simulated data a b / (F.D (zs.getD a 0) ^ 2 * F.plin (ks.getD b 0) * F.f (zs.getD a 0) ^ growthPower K)) :
    at_ o z k = some (bilinear (zs.getD i 0) (zs.getD (i + 1) 0) (ks.getD j 0) (ks.getD (j + 1) 0) (R i j) (R i (j + 1)) (R (i + 1) j) (R (i + 1) (j + 1)) z k) := by
  have hc : List.Forall₂ (fun gx j => InCell gx.1 gx.2 j) (o.table.grid.zip [z, k]) [i, j] := by
    rw [h.grid]
    simp only [List.zip_cons_cons, List.zip_nil_right, List.forall₂_cons, List.forall₂_nil_left_iff, and_true]
    rw [List.getD_eq_getElem _ _ (by omega), List.getD_eq_getElem _ _ hi] at hz
    rw [List.getD_eq_getElem _ _ (by omega), List.getD_eq_getElem _ _ hj] at hk
    exact ⟨⟨hi, Or.inl hz.1, Or.inl hz.2⟩, ⟨hj, Or.inl hk.1, Or.inl hk.2⟩⟩
  unfold at_
  rw [C90_linear o.table h.good [z, k] (by rw [h.grid]; rfl) [i, j] hc, h.grid]
  congr 1
  simp only [multilinear, entries, List.map_cons, List.map_nil]
  have e : ∀ a b : ℕ, a < zs.length → b < ks.length → o.table.table [Int.ofNat a, Int.ofNat b] = R a b := by
    intro a b ha hb
    rw [hR]
    exact h.entry a b ha hb
  rw [e i j (by omega) (by omega), e i (j + 1) (by omega) hj, e (i + 1) j hi (by omega), e (i + 1) (j + 1) hi hj]
  have hz1 : zs.getD i 0 < zs.getD (i + 1) 0 := by
    rw [List.getD_eq_getElem _ _ (by omega), List.getD_eq_getElem _ _ hi]
    exact List.pairwise_iff_getElem.1 h.zsA.1 i (i + 1) (by omega) hi (by omega)
  have hk1 : ks.getD j 0 < ks.getD (j + 1) 0 := by
    rw [List.getD_eq_getElem _ _ (by omega), List.getD_eq_getElem _ _ hj]
    exact List.pairwise_iff_getElem.1 h.ksA.1 j (j + 1) (by omega) hj (by omega)
  unfold bilinear
  have n1 : zs.getD (i + 1) 0 - zs.getD i 0 ≠ 0 := by linarith
  have n2 : ks.getD (j + 1) 0 - ks.getD j 0 ≠ 0 := by linarith
  field_simp
  ring

theorem getD_mono (l : List ℝ) (h : l.Pairwise (· < ·)) (i j : ℕ) (hij : i ≤ j) (hj : j < l.length) : l.getD i 0 ≤ l.getD j 0 := by
  rcases Nat.eq_or_lt_of_le hij with rfl | hlt
  · exact le_rfl
  · rw [List.getD_eq_getElem _ _ (by omega), List.getD_eq_getElem _ _ hj]
    exact (List.pairwise_iff_getElem.1 h i j (by omega) hj hlt).le

theorem headD_eq (l : List ℝ) : l.headD 0 = l.getD 0 0 := by cases l <;> rfl

theorem getLastD_eq (l : List ℝ) (h : l ≠ []) : l.getLastD 0 = l.getD (l.length - 1) 0 := by
  rw [List.getLastD_eq_getLast?, List.getLast?_eq_some_getLast h, List.getLast_eq_getElem]
  have : l.length - 1 < l.length := by have := List.length_pos_iff.2 h; omega
  rw [List.getD_eq_getElem _ _ this]
  rfl

theorem cell_range (l : List ℝ) (h : Ascending l) (i : ℕ) (hi : i + 1 < l.length) (x : ℝ) (hx : l.getD i 0 ≤ x ∧ x ≤ l.getD (i + 1) 0) :
    l.headD 0 ≤ x ∧ x ≤ l.getLastD 0 := by
  have hne : l ≠ [] := by rintro rfl; simp at hi
  rw [headD_eq, getLastD_eq l hne]
  exact ⟨le_trans (getD_mono l h.1 0 i (by omega) (by omega)) hx.1, le_trans hx.2 (getD_mono l h.1 (i + 1) _ (by omega) (by omega))⟩

theorem bilinear_corner (x0 x1 y0 y1 : ℝ) (hx : x0 < x1) (hy : y0 < y1) (a b c d : ℝ) :
    bilinear x0 x1 y0 y1 a b c d x0 y0 = a ∧ bilinear x0 x1 y0 y1 a b c d x0 y1 = b ∧ bilinear x0 x1 y0 y1 a b c d x1 y0 = c ∧ bilinear x0 x1 y0 y1 a b c d x1 y1 = d := by
  have n1 : x1 - x0 ≠ 0 := by linarith
  have n2 : y1 - y0 ≠ 0 := by linarith
  unfold bilinear
  refine ⟨?_, ?_, ?_, ?_⟩ <;> simp only [sub_self, zero_mul, mul_zero, zero_add, add_zero] <;> field_simp

/-- amplitude and redshift that a call uses -/
def used (o : Obj) : ℝ × ℝ :=
  if o.z < amin o.zs ∨ o.z > amax o.zs then (if o.z < amin o.zs then (o.z, amin o.zs) else (o.z, amax o.zs)) else (amplitude o, o.z)

theorem call_eq (o : Obj) (k : Arg) : o.call k = scaled o (used o).1 (used o).2 k := by
  unfold Obj.call extrapolate used
  split_ifs <;> rfl

/-- C130: between the redshifts and wavenumbers of the tables the spectrum is the bilinear interpolation of the simulated spectra over their linear theory, times the linear
theory of the object: `(f sigma8)^2` (for P11) or `f sigma8^2` (for Pdv) times the shape of the linear spectrum. -/
theorem C130_inside (F : Fiducial) (K : Kind) (data : List Sim) (zs ks : List ℝ) (h : GoodData data zs ks) (lin : Lin) (z s f : ℝ) (o : Obj)
    (hm : Obj.make F K data lin z s f = some o) (n : ℕ) (hn : K = .P11 ∧ n = 2 ∨ K = .Pdv ∧ n = 1) (k : ℝ) (i j : ℕ) (hi : i + 1 < zs.length) (hj : j + 1 < ks.length)
    (hz : zs.getD i 0 ≤ z ∧ z ≤ zs.getD (i + 1) 0) (hk : ks.getD j 0 ≤ k ∧ k ≤ ks.getD (j + 1) 0) (R : ℕ → ℕ → ℝ)
    (hR : ∀ a b, R a b = simulated data a b / (F.D (zs.getD a 0) ^ 2 * F.plin (ks.getD b 0) * F.f (zs.getD a 0) ^ n)) :
    o.call (.scalar k) = .number (some (
      bilinear (zs.getD i 0) (zs.getD (i + 1) 0) (ks.getD j 0) (ks.getD (j + 1) 0) (R i j) (R i (j + 1)) (R (i + 1) j) (R (i + 1) (j + 1)) z k *
        (f ^ n * s ^ 2 * lin.P k / lin.sigma8 ^ 2))) := by
  obtain ⟨H, rfl, rfl, rfl, rfl⟩ := make_holds F K data zs ks h lin z s f o hm
  have hg : growthPower K = n := by rcases hn with ⟨rfl, rfl⟩ | ⟨rfl, rfl⟩ <;> rfl
  have rz := cell_range zs h.zs_ascending i hi o.z hz
  have rk := cell_range ks h.ks_ascending j hj k hk
  unfold Obj.call
  rw [H.zs_eq, amin_ascending _ h.zs_ascending, amax_ascending _ h.zs_ascending, if_neg (by push Not; exact rz)]
  rw [(scaled_eq H (amplitude o) o.z (.scalar k)).2 (by
    intro a ha
    simp only [Arg.list, List.mem_singleton] at ha
    subst ha
    exact ⟨rz, rk⟩)]
  simp only [Arg.list, List.map_cons, List.map_nil, unpacked]
  rw [at_cell H o.z k i j hi hj hz hk R (by rw [hg]; exact hR)]
  simp only [Option.map_some, Result.number.injEq, Option.some.injEq]
  have : amplitude o = o.f ^ n * o.sigma8_z ^ 2 := by
    unfold amplitude
    rw [H.kind]
    rcases hn with ⟨rfl, rfl⟩ | ⟨rfl, rfl⟩ <;> simp only <;> ring
  rw [this]
  ring

/-- C130: for the cosmology of the simulations, at the redshift of a table, the simulated spectrum itself is returned at every tabulated wavenumber. -/
theorem C130_fiducial (F : Fiducial) (K : Kind) (data : List Sim) (zs ks : List ℝ) (h : GoodData data zs ks) (sigma8 : ℝ) (i j : ℕ) (hi : i < zs.length) (hj : j < ks.length)
    (hs : sigma8 ≠ 0) (hD : F.D (zs.getD i 0) ≠ 0) (hf : F.f (zs.getD i 0) ≠ 0) (hP : F.plin (ks.getD j 0) ≠ 0) (o : Obj)
    (hm : Obj.make F K data ⟨F.plin, 0, sigma8⟩ (zs.getD i 0) (sigma8 * F.D (zs.getD i 0)) (F.f (zs.getD i 0)) = some o) :
    o.call (.scalar (ks.getD j 0)) = .number (some (simulated data i j)) := by
  obtain ⟨H, hz, hs8, hff, hlin⟩ := make_holds F K data zs ks h _ _ _ _ o hm
  have node : ∀ (l : List ℝ), Ascending l → ∀ n, n < l.length → ∃ m, m + 1 < l.length ∧ (n = m ∨ n = m + 1) := by
    intro l hl n hn
    have := hl.2
    by_cases h : n + 1 < l.length
    · exact ⟨n, h, Or.inl rfl⟩
    · exact ⟨n - 1, by omega, Or.inr (by omega)⟩
  have cell : ∀ (l : List ℝ), Ascending l → ∀ n m, m + 1 < l.length → (n = m ∨ n = m + 1) → l.getD m 0 ≤ l.getD n 0 ∧ l.getD n 0 ≤ l.getD (m + 1) 0 := by
    intro l hl n m hm hnm
    rcases hnm with rfl | rfl
    · exact ⟨le_rfl, getD_mono l hl.1 _ _ (by omega) hm⟩
    · exact ⟨getD_mono l hl.1 _ _ (by omega) hm, le_rfl⟩
  have lt : ∀ (l : List ℝ), Ascending l → ∀ m, m + 1 < l.length → l.getD m 0 < l.getD (m + 1) 0 := by
    intro l hl m hm
    rw [List.getD_eq_getElem _ _ (by omega), List.getD_eq_getElem _ _ hm]
    exact List.pairwise_iff_getElem.1 hl.1 m (m + 1) (by omega) hm (by omega)
  obtain ⟨a, ha, hia⟩ := node zs h.zs_ascending i hi
  obtain ⟨b, hb, hjb⟩ := node ks h.ks_ascending j hj
  have key := C130_inside F K data zs ks h _ _ _ _ o hm (growthPower K) (by cases K <;> simp [growthPower]) (ks.getD j 0) a b ha hb
    (cell zs h.zs_ascending i a ha hia) (cell ks h.ks_ascending j b hb hjb) (fun a b => _) (fun _ _ => rfl)
  rw [key]
  congr 2
  have lz := lt zs h.zs_ascending a ha
  have lk := lt ks h.ks_ascending b hb
  have bil : ∀ R : ℕ → ℕ → ℝ, bilinear (zs.getD a 0) (zs.getD (a + 1) 0) (ks.getD b 0) (ks.getD (b + 1) 0) (R a b) (R a (b + 1)) (R (a + 1) b) (R (a + 1) (b + 1))
      (zs.getD i 0) (ks.getD j 0) = R i j := by
    intro R
    obtain ⟨c1, c2, c3, c4⟩ := bilinear_corner _ _ _ _ lz lk (R a b) (R a (b + 1)) (R (a + 1) b) (R (a + 1) (b + 1))
    rcases hia with rfl | rfl <;> rcases hjb with rfl | rfl <;> assumption
  rw [bil fun a b => simulated data a b / (F.D (zs.getD a 0) ^ 2 * F.plin (ks.getD b 0) * F.f (zs.getD a 0) ^ growthPower K)]
  field_simp

/-- C130: a call gives an error exactly if one of the wavenumbers is outside of those of the tables, wherever the redshift is. -/
theorem C130_domain (F : Fiducial) (K : Kind) (data : List Sim) (zs ks : List ℝ) (h : GoodData data zs ks) (lin : Lin) (z s f : ℝ) (o : Obj)
    (hm : Obj.make F K data lin z s f = some o) (k : Arg) :
    (o.call k = .domainError ↔ ∃ a ∈ k.list, a < ks.headD 0 ∨ ks.getLastD 0 < a) ∧ o.call k ≠ .otherError := by
  obtain ⟨H, rfl, rfl, rfl, rfl⟩ := make_holds F K data zs ks h lin z s f o hm
  have hne : zs ≠ [] := by
    rintro rfl
    have := h.zs_ascending.2
    simp at this
  have hml : zs.headD 0 ≤ zs.getLastD 0 := by
    rw [headD_eq, getLastD_eq zs hne]
    have := h.zs_ascending.2
    exact getD_mono zs h.zs_ascending.1 _ _ (by omega) (by omega)
  have key : ∀ amp z', zs.headD 0 ≤ z' → z' ≤ zs.getLastD 0 →
      (scaled o amp z' k = .domainError ↔ ∃ a ∈ k.list, a < ks.headD 0 ∨ ks.getLastD 0 < a) ∧ scaled o amp z' k ≠ .otherError := by
    intro amp z' h1 h2
    obtain ⟨s1, s2⟩ := scaled_eq H amp z' k
    by_cases hc : ∃ a ∈ k.list, a < ks.headD 0 ∨ ks.getLastD 0 < a
    · obtain ⟨a, ha, hc'⟩ := hc
      have := s1 ⟨a, ha, fun hn => by rcases hc' with hc' | hc' <;> linarith [hn.2.1, hn.2.2]⟩
      rw [this]
      exact ⟨⟨fun _ => ⟨a, ha, hc'⟩, fun _ => rfl⟩, by simp⟩
    · have hc2 := hc
      push Not at hc2
      rw [s2 fun a ha => ⟨⟨h1, h2⟩, hc2 a ha⟩]
      have hu : ∀ l, unpacked l ≠ .domainError ∧ unpacked l ≠ .otherError := by
        intro l
        rcases l with _ | ⟨v, _ | ⟨w, l⟩⟩ <;> simp [unpacked]
      exact ⟨⟨fun e => absurd e (hu _).1, fun e => absurd e hc⟩, (hu _).2⟩
  unfold Obj.call extrapolate
  rw [H.zs_eq, amin_ascending _ h.zs_ascending, amax_ascending _ h.zs_ascending]
  split_ifs with c1 c2
  · exact key _ _ le_rfl hml
  · exact key _ _ hml le_rfl
  · push Not at c1
    exact key _ _ c1.1 c1.2

/-- C130: in an array of wavenumbers each value is that of the wavenumber alone; an array of one wavenumber gives a number. -/
theorem C130_array (F : Fiducial) (K : Kind) (data : List Sim) (zs ks : List ℝ) (h : GoodData data zs ks) (lin : Lin) (z s f : ℝ) (o : Obj)
    (hm : Obj.make F K data lin z s f = some o) (l : List ℝ) (hin : ∀ a ∈ l, ks.headD 0 ≤ a ∧ a ≤ ks.getLastD 0) :
    ∃ v : List (Option ℝ), List.Forall₂ (fun a x => o.call (.scalar a) = .number x) l v ∧
      ((l.length ≠ 1 ∧ o.call (.array l) = .array v) ∨ (∃ a x, l = [a] ∧ v = [x] ∧ o.call (.array l) = .number x)) := by
  obtain ⟨H, rfl, rfl, rfl, rfl⟩ := make_holds F K data zs ks h lin z s f o hm
  have hne : zs ≠ [] := by
    rintro rfl
    have := h.zs_ascending.2
    simp at this
  have hml : zs.headD 0 ≤ zs.getLastD 0 := by
    rw [headD_eq, getLastD_eq zs hne]
    have := h.zs_ascending.2
    exact getD_mono zs h.zs_ascending.1 _ _ (by omega) (by omega)
  have key : ∃ amp z', zs.headD 0 ≤ z' ∧ z' ≤ zs.getLastD 0 ∧ ∀ k, o.call k = scaled o amp z' k := by
    unfold Obj.call extrapolate
    rw [H.zs_eq, amin_ascending _ h.zs_ascending, amax_ascending _ h.zs_ascending]
    split_ifs with c1 c2
    · exact ⟨_, _, le_rfl, hml, fun _ => rfl⟩
    · exact ⟨_, _, hml, le_rfl, fun _ => rfl⟩
    · push Not at c1
      exact ⟨_, _, c1.1, c1.2, fun _ => rfl⟩
  obtain ⟨amp, z', h1, h2, hk⟩ := key
  refine ⟨l.map fun a => (at_ o z' a).map (· * (amp * (o.lin.P a / o.lin.sigma8 ^ 2))), ?_, ?_⟩
  · rw [List.forall₂_map_right_iff, List.forall₂_same]
    intro a ha
    rw [hk, (scaled_eq H amp z' (.scalar a)).2 (by
      intro b hb
      simp only [Arg.list, List.mem_singleton] at hb
      subst hb
      exact ⟨⟨h1, h2⟩, hin b ha⟩)]
    rfl
  · rw [hk, (scaled_eq H amp z' (.array l)).2 (by
      intro b hb
      exact ⟨⟨h1, h2⟩, hin b hb⟩)]
    simp only [Arg.list]
    rcases l with _ | ⟨a, _ | ⟨b, l⟩⟩
    · exact Or.inl ⟨by simp, rfl⟩
    · exact Or.inr ⟨a, _, rfl, rfl, rfl⟩
    · exact Or.inl ⟨by simp, rfl⟩

/-- The values of the parameters after some assignments. -/
def final (p : Lin × ℝ × ℝ × ℝ) : List Assign → Lin × ℝ × ℝ × ℝ
  | [] => p
  | .power_lin v :: l => final (v, p.2) l
  | .z v :: l => final (p.1, v, p.2.2) l
  | .sigma8_z v :: l => final (p.1, p.2.1, v, p.2.2.2) l
  | .f v :: l => final (p.1, p.2.1, p.2.2.1, v) l

/-- C130: after any assignments an object is the one that would be made with the parameters it has now, if its linear spectrum now has the sigma8 of the one it was made
with and is at redshift 0.  Missing: neither is checked, see the counterexamples. -/
theorem C130_assign_partial (F : Fiducial) (K : Kind) (data : List Sim) (lin : Lin) (z s f : ℝ) (o : Obj) (hm : Obj.make F K data lin z s f = some o) (as : List Assign)
    (lin' : Lin) (z' s' f' : ℝ) (hf : final (lin, z, s, f) as = (lin', z', s', f')) (h0 : lin'.redshift = 0) (h8 : lin'.sigma8 = lin.sigma8) :
    Obj.make F K data lin' z' s' f' = some (as.foldl Obj.assign o) := by
  have shape : ∃ t, o = ⟨K, z, s, f, lin, lin.sigma8, t⟩ ∧ ∃ rows, frame F K data = some rows ∧ interpolationTable rows = some t := by
    unfold Obj.make at hm
    split_ifs at hm
    split at hm
    · cases hm
    · rename_i rows hr
      split at hm
      · cases hm
      · rename_i t ht
        exact ⟨t, (Option.some.inj hm).symm, rows, hr, ht⟩
  obtain ⟨t, rfl, rows, hr, ht⟩ := shape
  have gen : ∀ (as : List Assign) (l : Lin) (z s f c : ℝ), final (l, z, s, f) as = (lin', z', s', f') →
      as.foldl Obj.assign ⟨K, z, s, f, l, c, t⟩ = ⟨K, z', s', f', lin', c, t⟩ := by
    intro as
    induction as with
    | nil =>
      intro l z s f c h
      simp only [final, Prod.mk.injEq] at h
      obtain ⟨rfl, rfl, rfl, rfl⟩ := h
      rfl
    | cons a as ih =>
      intro l z s f c h
      cases a <;> simp only [List.foldl_cons, Obj.assign] <;> exact ih _ _ _ _ _ h
  rw [gen as lin z s f lin.sigma8 hf]
  unfold Obj.make
  rw [if_neg (by simpa using h0), hr]
  simp only [ht, h8]

/-- C130: outside of the redshifts of the tables the spectrum is the one at the nearest table, with the redshift itself as amplitude: the growth rate and sigma8 of the
object do not enter. -/
theorem C130_outside (F : Fiducial) (K : Kind) (data : List Sim) (zs ks : List ℝ) (h : GoodData data zs ks) (lin : Lin) (z s f : ℝ) (o : Obj)
    (hm : Obj.make F K data lin z s f = some o) (n : ℕ) (hn : K = .P11 ∧ n = 2 ∨ K = .Pdv ∧ n = 1) (j : ℕ) (hj : j < ks.length) :
    (zs.getLastD 0 < z → o.call (.scalar (ks.getD j 0)) = .number (some (
      simulated data (zs.length - 1) j / (F.D (zs.getLastD 0) ^ 2 * F.plin (ks.getD j 0) * F.f (zs.getLastD 0) ^ n) * (z * lin.P (ks.getD j 0) / lin.sigma8 ^ 2)))) ∧
    (z < zs.headD 0 → o.call (.scalar (ks.getD j 0)) = .number (some (
      simulated data 0 j / (F.D (zs.headD 0) ^ 2 * F.plin (ks.getD j 0) * F.f (zs.headD 0) ^ n) * (z * lin.P (ks.getD j 0) / lin.sigma8 ^ 2)))) := by
  obtain ⟨H, rfl, rfl, rfl, rfl⟩ := make_holds F K data zs ks h lin z s f o hm
  have hg : growthPower K = n := by rcases hn with ⟨rfl, rfl⟩ | ⟨rfl, rfl⟩ <;> rfl
  have hzl := h.zs_ascending.2
  have hkl := h.ks_ascending.2
  have hne : zs ≠ [] := by rintro rfl; simp at hzl
  have hkne : ks ≠ [] := by rintro rfl; simp at hkl
  have hml : zs.headD 0 ≤ zs.getLastD 0 := by
    rw [headD_eq, getLastD_eq zs hne]
    exact getD_mono zs h.zs_ascending.1 _ _ (by omega) (by omega)
  have hkr : ks.headD 0 ≤ ks.getD j 0 ∧ ks.getD j 0 ≤ ks.getLastD 0 := by
    rw [headD_eq, getLastD_eq ks hkne]
    exact ⟨getD_mono ks h.ks_ascending.1 _ _ (by omega) hj, getD_mono ks h.ks_ascending.1 _ _ (by omega) (by omega)⟩
  have nodes : ∀ i, i < zs.length → at_ o (zs.getD i 0) (ks.getD j 0) = some (simulated data i j / (F.D (zs.getD i 0) ^ 2 * F.plin (ks.getD j 0) * F.f (zs.getD i 0) ^ n)) := by
    intro i hi
    unfold at_
    rw [C90_nodes o.table H.good [i, j] [zs.getD i 0, ks.getD j 0] (by
      rw [H.grid]
      simp only [List.zip_cons_cons, List.zip_nil_right, List.forall₂_cons, List.forall₂_nil_left_iff, and_true]
      exact ⟨⟨hi, List.getD_eq_getElem _ _ hi⟩, ⟨hj, List.getD_eq_getElem _ _ hj⟩⟩) (by rw [H.grid]; rfl)]
    congr 1
    rw [← hg]
    exact H.entry i j hi hj
  have sc : ∀ amp i, i < zs.length → zs.headD 0 ≤ zs.getD i 0 → zs.getD i 0 ≤ zs.getLastD 0 → scaled o amp (zs.getD i 0) (.scalar (ks.getD j 0)) =
      .number (some (simulated data i j / (F.D (zs.getD i 0) ^ 2 * F.plin (ks.getD j 0) * F.f (zs.getD i 0) ^ n) * (amp * o.lin.P (ks.getD j 0) / o.lin.sigma8 ^ 2))) := by
    intro amp i hi h1 h2
    rw [(scaled_eq H amp (zs.getD i 0) (.scalar (ks.getD j 0))).2 (by
      intro b hb
      simp only [Arg.list, List.mem_singleton] at hb
      subst hb
      exact ⟨⟨h1, h2⟩, hkr⟩)]
    simp only [Arg.list, List.map_cons, List.map_nil, unpacked, nodes i hi, Option.map_some]
    congr 2
    ring
  unfold Obj.call extrapolate
  rw [H.zs_eq, amin_ascending _ h.zs_ascending, amax_ascending _ h.zs_ascending]
  constructor
  · intro hz
    rw [if_pos (Or.inr hz), if_neg (by linarith)]
    have := sc o.z (zs.length - 1) (by omega)
    rw [← getLastD_eq zs hne] at this
    exact this hml le_rfl
  · intro hz
    rw [if_pos (Or.inl hz), if_pos hz]
    have := sc o.z 0 (by omega)
    rw [← headD_eq zs] at this
    exact this le_rfl hml

/-- C130 is false of the code at the edge of the tables: going from the last redshift to larger ones, the spectrum at a tabulated wavenumber jumps, unless `(f sigma8)^2`
(for Pdv `f sigma8^2`) is by chance the last redshift. -/
theorem C130_edge_counterexample (F : Fiducial) (K : Kind) (data : List Sim) (zs ks : List ℝ) (h : GoodData data zs ks) (lin : Lin) (h0 : lin.redshift = 0) (s f : ℝ)
    (n : ℕ) (hn : K = .P11 ∧ n = 2 ∨ K = .Pdv ∧ n = 1) (j : ℕ) (hj : j < ks.length)
    (hw : simulated data (zs.length - 1) j / (F.D (zs.getLastD 0) ^ 2 * F.plin (ks.getD j 0) * F.f (zs.getLastD 0) ^ n) * (lin.P (ks.getD j 0) / lin.sigma8 ^ 2) ≠ 0) :
    ∃ P : ℝ → ℝ, (∀ z, zs.getLastD 0 ≤ z → ∃ o, Obj.make F K data lin z s f = some o ∧ o.call (.scalar (ks.getD j 0)) = .number (some (P z))) ∧
      (ContinuousWithinAt P (Set.Ioi (zs.getLastD 0)) (zs.getLastD 0) ↔ f ^ n * s ^ 2 = zs.getLastD 0) := by
  obtain ⟨w, hw'⟩ : ∃ w, w = simulated data (zs.length - 1) j / (F.D (zs.getLastD 0) ^ 2 * F.plin (ks.getD j 0) * F.f (zs.getLastD 0) ^ n) * (lin.P (ks.getD j 0) / lin.sigma8 ^ 2) :=
    ⟨_, rfl⟩
  rw [← hw'] at hw
  have hzl := h.zs_ascending.2
  have hkl := h.ks_ascending.2
  have hne : zs ≠ [] := by rintro rfl; simp at hzl
  refine ⟨fun z => if z = zs.getLastD 0 then f ^ n * s ^ 2 * w else z * w, ?_, ?_⟩
  · intro z hz
    obtain ⟨o, ho⟩ := (C130_make F K data zs ks h lin z s f).2 h0
    refine ⟨o, ho, ?_⟩
    dsimp only
    split_ifs with hzz
    · obtain ⟨b, hb, hjb⟩ : ∃ m, m + 1 < ks.length ∧ (j = m ∨ j = m + 1) := by
        by_cases hc : j + 1 < ks.length
        · exact ⟨j, hc, Or.inl rfl⟩
        · exact ⟨j - 1, by omega, Or.inr (by omega)⟩
      have lastz : zs.getLastD 0 = zs.getD (zs.length - 2 + 1) 0 := by
        rw [getLastD_eq zs hne]
        congr 1
        omega
      have lz : zs.getD (zs.length - 2) 0 < zs.getD (zs.length - 2 + 1) 0 := by
        rw [List.getD_eq_getElem _ _ (by omega), List.getD_eq_getElem _ _ (by omega)]
        exact List.pairwise_iff_getElem.1 h.zs_ascending.1 _ _ (by omega) (by omega) (by omega)
      have lk : ks.getD b 0 < ks.getD (b + 1) 0 := by
        rw [List.getD_eq_getElem _ _ (by omega), List.getD_eq_getElem _ _ (by omega)]
        exact List.pairwise_iff_getElem.1 h.ks_ascending.1 _ _ (by omega) (by omega) (by omega)
      have := C130_inside F K data zs ks h lin z s f o ho n hn (ks.getD j 0) (zs.length - 2) b (by omega) hb (by rw [hzz, lastz]; exact ⟨lz.le, le_rfl⟩)
        (by rcases hjb with rfl | rfl <;> exact ⟨by linarith, by linarith⟩) (fun a b => _) (fun _ _ => rfl)
      rw [this, hw']
      congr 2
      have e : zs.length - 2 + 1 = zs.length - 1 := by omega
      rw [hzz, lastz]
      have bil : ∀ R : ℕ → ℕ → ℝ, bilinear (zs.getD (zs.length - 2) 0) (zs.getD (zs.length - 2 + 1) 0) (ks.getD b 0) (ks.getD (b + 1) 0) (R (zs.length - 2) b)
          (R (zs.length - 2) (b + 1)) (R (zs.length - 2 + 1) b) (R (zs.length - 2 + 1) (b + 1)) (zs.getD (zs.length - 2 + 1) 0) (ks.getD j 0) = R (zs.length - 1) j := by
        intro R
        obtain ⟨c1, c2, c3, c4⟩ := bilinear_corner _ _ _ _ lz lk (R (zs.length - 2) b) (R (zs.length - 2) (b + 1)) (R (zs.length - 2 + 1) b) (R (zs.length - 2 + 1) (b + 1))
        rw [e] at c3 c4 ⊢
        rcases hjb with rfl | rfl <;> assumption
      rw [bil fun a b => simulated data a b / (F.D (zs.getD a 0) ^ 2 * F.plin (ks.getD b 0) * F.f (zs.getD a 0) ^ n), e]
      ring
    · rw [(C130_outside F K data zs ks h lin z s f o ho n hn j hj).1 (lt_of_le_of_ne hz (Ne.symm hzz)), hw']
      congr 2
      ring
  · have ht : Filter.Tendsto (fun z => if z = zs.getLastD 0 then f ^ n * s ^ 2 * w else z * w) (nhdsWithin (zs.getLastD 0) (Set.Ioi (zs.getLastD 0)))
        (nhds (zs.getLastD 0 * w)) := by
      have : Filter.Tendsto (fun z : ℝ => z * w) (nhdsWithin (zs.getLastD 0) (Set.Ioi (zs.getLastD 0))) (nhds (zs.getLastD 0 * w)) :=
        ((continuous_id.mul continuous_const).tendsto _).mono_left nhdsWithin_le_nhds
      refine this.congr' ?_
      filter_upwards [self_mem_nhdsWithin] with z hz
      rw [if_neg (ne_of_gt hz)]
    unfold ContinuousWithinAt
    simp only [if_true]
    constructor
    · intro hc
      have := tendsto_nhds_unique hc ht
      exact mul_right_cancel₀ hw this
    · intro e
      rw [show nhds (f ^ n * s ^ 2 * w) = nhds (zs.getLastD 0 * w) by rw [e]]
      exact ht

/-- C130: the spectrum scales with the growth rate and sigma8 as in linear theory, `(a f)^n (b sigma8)^2`, at all redshifts of the tables. -/
theorem C130_scaling (F : Fiducial) (K : Kind) (data : List Sim) (zs ks : List ℝ) (h : GoodData data zs ks) (lin : Lin) (z s f a b : ℝ)
    (hz : zs.headD 0 ≤ z ∧ z ≤ zs.getLastD 0) (n : ℕ) (hn : K = .P11 ∧ n = 2 ∨ K = .Pdv ∧ n = 1) (o o' : Obj) (hm : Obj.make F K data lin z s f = some o)
    (hm' : Obj.make F K data lin z (b * s) (a * f) = some o') (k v : ℝ) (hv : o.call (.scalar k) = .number (some v)) :
    o'.call (.scalar k) = .number (some (a ^ n * b ^ 2 * v)) := by
  have hin : ks.headD 0 ≤ k ∧ k ≤ ks.getLastD 0 := by
    by_contra hc
    have := (C130_domain F K data zs ks h lin z s f o hm (.scalar k)).1.2 ⟨k, by simp [Arg.list], by
      by_contra hc2
      push Not at hc2
      exact hc hc2⟩
    rw [this] at hv
    cases hv
  obtain ⟨H, rfl, rfl, rfl, rfl⟩ := make_holds F K data zs ks h lin z s f o hm
  obtain ⟨H', e1, e2, e3, e4⟩ := make_holds F K data zs ks h _ _ _ _ o' hm'
  have tab : o'.table = o.table := by
    unfold Obj.make at hm hm'
    split_ifs at hm hm'
    split at hm
    · cases hm
    · rename_i rows hr
      split at hm
      · cases hm
      · rename_i t ht
        rw [hr] at hm'
        simp only [ht, Option.some.injEq] at hm'
        rw [← hm']
        have := Option.some.inj hm
        rw [← this]
  unfold Obj.call at hv ⊢
  rw [H.zs_eq, amin_ascending _ h.zs_ascending, amax_ascending _ h.zs_ascending, if_neg (by push Not; exact hz)] at hv
  rw [H'.zs_eq, amin_ascending _ h.zs_ascending, amax_ascending _ h.zs_ascending, e1, if_neg (by push Not; exact hz)]
  have dom : ∀ c ∈ (Arg.scalar k).list, (zs.headD 0 ≤ o.z ∧ o.z ≤ zs.getLastD 0) ∧ (ks.headD 0 ≤ c ∧ c ≤ ks.getLastD 0) := by
    intro c hc
    simp only [Arg.list, List.mem_singleton] at hc
    subst hc
    exact ⟨hz, hin⟩
  rw [(scaled_eq H _ o.z (.scalar k)).2 dom] at hv
  rw [(scaled_eq H' _ o.z (.scalar k)).2 dom]
  simp only [Arg.list, List.map_cons, List.map_nil, unpacked, Result.number.injEq] at hv ⊢
  have : at_ o' o.z k = at_ o o.z k := by unfold at_; rw [tab]
  rw [this, e4]
  obtain ⟨x, hx, hxv⟩ := Option.map_eq_some_iff.1 hv
  rw [hx, Option.map_some, ← hxv]
  congr 1
  have a1 : amplitude o' = a ^ n * b ^ 2 * amplitude o := by
    unfold amplitude
    rw [H.kind, H'.kind, e2, e3]
    rcases hn with ⟨rfl, rfl⟩ | ⟨rfl, rfl⟩ <;> simp only <;> ring
  rw [a1]
  ring

/-- C130 is false of the code if another linear spectrum is assigned: the normalisation remains that of the first, so that the result is off by the ratio of the squares of
sigma8 from what an object made with the new spectrum gives. -/
theorem C130_linear_counterexample (F : Fiducial) (K : Kind) (data : List Sim) (zs ks : List ℝ) (h : GoodData data zs ks) (lin lin' : Lin) (z s f : ℝ) (o o' : Obj)
    (hm : Obj.make F K data lin z s f = some o) (hm' : Obj.make F K data lin' z s f = some o') (h1 : lin.sigma8 ≠ 0) (h2 : lin'.sigma8 ≠ 0) (k v : ℝ)
    (hv : o'.call (.scalar k) = .number (some v)) :
    (o.assign (.power_lin lin')).call (.scalar k) = .number (some (v * (lin'.sigma8 ^ 2 / lin.sigma8 ^ 2))) := by
  unfold Obj.make at hm hm'
  split_ifs at hm hm'
  split at hm
  · cases hm
  · rename_i rows hr
    split at hm
    · cases hm
    · rename_i t ht
      rw [hr] at hm'
      simp only [ht, Option.some.injEq] at hm'
      have hm2 := Option.some.inj hm
      subst hm' hm2
      have sc : ∀ amp zz x, scaled ⟨K, z, s, f, lin', lin'.sigma8, t⟩ amp zz (.scalar k) = .number (some x) →
          scaled ⟨K, z, s, f, lin', lin.sigma8, t⟩ amp zz (.scalar k) = .number (some (x * (lin'.sigma8 ^ 2 / lin.sigma8 ^ 2))) := by
        intro amp zz x hx
        unfold scaled at hx ⊢
        simp only [Arg.list, List.map_cons, List.map_nil] at hx ⊢
        split at hx
        · rename_i l hl
          rcases l with _ | ⟨y, l⟩
          · simp [unpacked] at hx
          · simp only [List.zipWith_cons_cons, List.zipWith_nil_right, unpacked, Result.number.injEq] at hx ⊢
            obtain ⟨w, rfl, hw⟩ := Option.map_eq_some_iff.1 hx
            rw [Option.map_some, ← hw]
            congr 1
            field_simp
        · cases hx
        · cases hx
      rw [call_eq] at hv ⊢
      exact sc _ _ _ hv

/-- C130 is false of the code: a linear spectrum that is not at redshift 0, which the constructor refuses, can be assigned afterwards, and no call notices. -/
theorem C130_redshift_counterexample (F : Fiducial) (K : Kind) (data : List Sim) (zs ks : List ℝ) (h : GoodData data zs ks) (lin : Lin) (h0 : lin.redshift = 0) (z s f : ℝ)
    (r : ℝ) (hr : r ≠ 0) :
    ∃ o, Obj.make F K data lin z s f = some o ∧ Obj.make F K data ⟨lin.P, r, lin.sigma8⟩ z s f = none ∧
      ∀ k, (o.assign (.power_lin ⟨lin.P, r, lin.sigma8⟩)).call k = o.call k := by
  obtain ⟨o, ho⟩ := (C130_make F K data zs ks h lin z s f).2 h0
  obtain ⟨H, rfl, rfl, rfl, rfl⟩ := make_holds F K data zs ks h lin z s f o ho
  refine ⟨o, ho, ?_, fun k => rfl⟩
  unfold Obj.make
  rw [if_pos hr]

end

end Verif.SimSpectra
