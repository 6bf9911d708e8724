/-
The tables of C130.
-/
import Verif.Model.SimSpectra
import Verif.Spec.SimSpectra
import Verif.Props.Interp
import Mathlib.Data.List.GetD
import Mathlib.Algebra.BigOperators.Group.List.Lemmas

namespace Verif.SimSpectra

open Verif.Interp Spec

noncomputable section

theorem mem_unique (l : List ℝ) (a : ℝ) : a ∈ unique l ↔ a ∈ l := by
  induction l with
  | nil => simp [unique]
  | cons b l ih =>
    simp only [unique, List.mem_cons, List.mem_filter, decide_eq_true_eq, ih]
    by_cases h : a = b <;> simp [h]

theorem unique_append (l₁ l₂ : List ℝ) : unique (l₁ ++ l₂) = unique l₁ ++ (unique l₂).filter fun b => decide (b ∉ l₁) := by
  induction l₁ with
  | nil => simp [unique]
  | cons a l ih =>
    rw [List.cons_append]
    simp only [unique, ih, List.filter_append, List.filter_filter, List.cons_append]
    congr 2
    apply List.filter_congr
    intro b _
    simp [Bool.decide_and, not_or]

theorem unique_nodup (l : List ℝ) (h : l.Nodup) : unique l = l := by
  induction l with
  | nil => rfl
  | cons a l ih =>
    rw [List.nodup_cons] at h
    simp only [unique, ih h.2]
    congr 1
    rw [List.filter_eq_self]
    intro b hb
    simp only [ne_eq, decide_eq_true_eq]
    rintro rfl
    exact h.1 hb

theorem unique_replicate (n : ℕ) (a : ℝ) : unique (List.replicate (n + 1) a) = [a] := by
  induction n with
  | zero => simp [unique]
  | succ n ih =>
    rw [List.replicate_succ]
    simp only [unique, ih]
    simp

theorem unique_runs (n : ℕ) (zs : List ℝ) (h : zs.Nodup) : unique (zs.flatMap fun z => List.replicate (n + 1) z) = zs := by
  induction zs with
  | nil => rfl
  | cons a l ih =>
    rw [List.nodup_cons] at h
    rw [List.flatMap_cons, unique_append, unique_replicate, ih h.2]
    rw [List.filter_eq_self.2]
    · rfl
    · intro b hb
      simp only [List.mem_replicate, decide_eq_true_eq]
      rintro ⟨_, rfl⟩
      exact h.1 hb

theorem unique_repeat (a : ℝ) (zs ks : List ℝ) (h : ks.Nodup) : unique ((a :: zs).flatMap fun _ => ks) = ks := by
  rw [List.flatMap_cons, unique_append, unique_nodup ks h, List.filter_eq_nil_iff.2]
  · simp
  · intro b hb
    rw [mem_unique, List.mem_flatMap] at hb
    obtain ⟨_, _, hb⟩ := hb
    simpa using hb

/-- the rows of the frame, table by table -/
def rowsOf (F : Fiducial) (K : Kind) (data : List Sim) : List ((ℝ × ℝ) × ℝ) := data.flatMap fun s => s.2.map fun r => ((s.1, r.1), normed F K s.1 r)

theorem zip_rows (F : Fiducial) (K : Kind) (data : List Sim) (ks : List ℝ) (h : ∀ s ∈ data, s.2.map Prod.fst = ks) :
    (index (data.map (·.1)) ks).zip (column F K data) = rowsOf F K data ∧ (index (data.map (·.1)) ks).length = (column F K data).length := by
  induction data with
  | nil => simp [index, column, rowsOf]
  | cons s data ih =>
    obtain ⟨i1, i2⟩ := ih fun t ht => h t (List.mem_cons_of_mem _ ht)
    have hs := h s List.mem_cons_self
    simp only [index, column, rowsOf] at i1 i2 ⊢
    have hl : (ks.map fun k => (s.1, k)).length = (s.2.map (normed F K s.1)).length := by rw [← hs]; simp
    constructor
    · rw [List.map_cons, List.flatMap_cons, List.flatMap_cons, List.flatMap_cons, List.zip_append hl, i1]
      congr 1
      rw [← hs, List.map_map]
      rw [List.zip_map']
      rfl
    · rw [List.map_cons, List.flatMap_cons, List.flatMap_cons, List.length_append, List.length_append, i2, hl]

theorem xs_rows (F : Fiducial) (K : Kind) (data : List Sim) (hn : (data.map Prod.fst).Nodup) (s : Sim) (hs : s ∈ data) :
    xs (rowsOf F K data) s.1 = s.2.map (normed F K s.1) := by
  have key : ∀ (t : Sim) (z : ℝ), xs (t.2.map fun r => ((t.1, r.1), normed F K t.1 r)) z = if t.1 = z then t.2.map (normed F K t.1) else [] := by
    intro t z
    unfold xs
    split_ifs with h
    · rw [List.filter_eq_self.2, List.map_map]
      · rfl
      · intro r hr
        obtain ⟨x, _, rfl⟩ := List.mem_map.1 hr
        simpa using h
    · rw [List.filter_eq_nil_iff.2]
      · rfl
      · intro r hr
        obtain ⟨x, _, rfl⟩ := List.mem_map.1 hr
        simpa using h
  have app : ∀ (a b : List ((ℝ × ℝ) × ℝ)) z, xs (a ++ b) z = xs a z ++ xs b z := by
    intro a b z
    simp [xs]
  have none_ : ∀ (d : List Sim) z, (∀ t ∈ d, t.1 ≠ z) → xs (rowsOf F K d) z = [] := by
    intro d z h
    induction d with
    | nil => rfl
    | cons t d ih =>
      rw [rowsOf, List.flatMap_cons, app, key, if_neg (h t List.mem_cons_self), List.nil_append]
      exact ih fun u hu => h u (List.mem_cons_of_mem _ hu)
  induction data with
  | nil => simp at hs
  | cons t data ih =>
    rw [List.map_cons, List.nodup_cons] at hn
    rw [rowsOf, List.flatMap_cons, app, key]
    rcases List.mem_cons.1 hs with rfl | h
    · rw [if_pos rfl]
      have := none_ data s.1 fun u hu e => hn.1 (List.mem_map.2 ⟨u, hu, e⟩)
      rw [rowsOf] at this
      rw [this, List.append_nil]
    · rw [if_neg]
      · exact ih hn.2 h
      · intro e
        exact hn.1 (List.mem_map.2 ⟨s, h, e.symm⟩)

theorem getD_blocks (n : ℕ) (bs : List (List ℝ)) (h : ∀ b ∈ bs, b.length = n) (i j : ℕ) (hi : i < bs.length) (hj : j < n) :
    (bs.flatMap id).getD (i * n + j) 0 = bs[i].getD j 0 := by
  induction bs generalizing i with
  | nil => simp at hi
  | cons b bs ih =>
    have hb := h b List.mem_cons_self
    rw [List.flatMap_cons]
    cases i with
    | zero =>
      rw [zero_mul, zero_add, List.getD_append _ _ _ _ (by simpa [hb] using hj)]
      rfl
    | succ i =>
      rw [List.getD_append_right _ _ _ _ (by simp only [id, hb]; nlinarith)]
      rw [show (i + 1) * n + j - (id b).length = i * n + j by simp only [id, hb]; rw [add_mul, one_mul]; omega]
      rw [ih (fun c hc => h c (List.mem_cons_of_mem _ hc)) i (by simpa using hi)]
      rfl



/-- The table of well-formed data. -/
theorem table_good (F : Fiducial) (K : Kind) (data : List Sim) (zs ks : List ℝ) (h : GoodData data zs ks) :
    ∃ rows I, frame F K data = some rows ∧ interpolationTable rows = some I ∧ I.grid = [zs, ks] ∧ I.method = .linear ∧ I.boundsError = true ∧
      ∀ i j : ℕ, i < zs.length → j < ks.length → I.table [(i : ℤ), (j : ℤ)] = simulated data i j / (F.D (zs.getD i 0) ^ 2 * F.plin (ks.getD j 0) * F.f (zs.getD i 0) ^ growthPower K) := by
  obtain ⟨h1, h2, h3, h4⟩ := h
  obtain ⟨z1, z2⟩ := zip_rows F K data ks h2
  have hne : data ≠ [] := by
    rintro rfl
    have := h3.2
    rw [← h1] at this
    simp at this
  obtain ⟨s, rest, rfl⟩ := List.exists_cons_of_ne_nil hne
  have hks := h2 s List.mem_cons_self
  have hf : frame F K (s :: rest) = some (rowsOf F K (s :: rest)) := by
    simp only [frame]
    rw [show s.2.map (fun x => x.1) = ks from hks, if_pos z2, z1]
  have hmap : (rowsOf F K (s :: rest)).map (·.1) = index ((s :: rest).map (·.1)) ks := by
    rw [← z1, List.map_fst_zip (le_of_eq z2)]
  have huz : unique ((rowsOf F K (s :: rest)).map (·.1.1)) = zs := by
    rw [show (fun x : (ℝ × ℝ) × ℝ => x.1.1) = Prod.fst ∘ Prod.fst from rfl, ← List.map_map, hmap]
    rw [show (s :: rest).map (·.1) = zs from h1]
    have : (index zs ks).map Prod.fst = zs.flatMap fun z => List.replicate (ks.length - 1 + 1) z := by
      rw [index, List.map_flatMap]
      congr 1
      funext z
      rw [List.map_map, Nat.sub_add_cancel (by have := h4.2; omega)]
      exact List.map_const'
    rw [this, unique_runs _ _ h3.1.nodup]
  have huk : unique ((rowsOf F K (s :: rest)).map (·.1.2)) = ks := by
    rw [show (fun x : (ℝ × ℝ) × ℝ => x.1.2) = Prod.snd ∘ Prod.fst from rfl, ← List.map_map, hmap]
    have : (index ((s :: rest).map (·.1)) ks).map Prod.snd = (s.1 :: rest.map (·.1)).flatMap fun _ => ks := by
      rw [index, List.map_flatMap]
      congr 1
      funext z
      rw [List.map_map]
      exact List.map_id ks
    rw [this, unique_repeat _ _ _ h4.1.nodup]
  have hnd : ((s :: rest).map Prod.fst).Nodup := by rw [h1]; exact h3.1.nodup
  have hvals : zs.flatMap (xs (rowsOf F K (s :: rest))) = ((s :: rest).map fun t => t.2.map (normed F K t.1)).flatMap id := by
    rw [← h1, List.flatMap_map, List.flatMap_map]
    apply List.flatMap_congr
    intro t ht
    exact xs_rows F K _ hnd t ht
  have hlen : ∀ b ∈ ((s :: rest).map fun t => t.2.map (normed F K t.1)), b.length = ks.length := by
    intro b hb
    obtain ⟨t, ht, rfl⟩ := List.mem_map.1 hb
    rw [← h2 t ht]
    simp
  have hzl : zs.length = (s :: rest).length := by rw [← h1]; simp
  have hvl : (zs.flatMap (xs (rowsOf F K (s :: rest)))).length = zs.length * ks.length := by
    rw [hvals, List.length_flatMap, hzl]
    have : List.map (fun x : List ℝ => (id x).length) ((s :: rest).map fun t => t.2.map (normed F K t.1)) = List.replicate (s :: rest).length ks.length := by
      rw [List.eq_replicate_iff]
      refine ⟨by simp, ?_⟩
      intro b hb
      obtain ⟨c, hc, rfl⟩ := List.mem_map.1 hb
      exact hlen c hc
    rw [this, List.sum_replicate, smul_eq_mul]
  have hI : interpolationTable (rowsOf F K (s :: rest)) =
      some ⟨[zs, ks], reshaped ks.length (zs.flatMap (xs (rowsOf F K (s :: rest)))), .linear, true, some none⟩ := by
    unfold interpolationTable
    simp only [huz, huk]
    rw [if_pos hvl]
    unfold mkInterp
    rw [if_neg (by simp), if_pos]
    simp only [List.zip_cons_cons, List.zip_nil_right, List.all_cons, List.all_nil, Bool.and_true, Bool.and_eq_true, decide_eq_true_eq, and_true]
    exact ⟨h3.1.isChain, h4.1.isChain⟩
  refine ⟨_, _, hf, hI, rfl, rfl, rfl, ?_⟩
  intro i j hi hj
  rw [hzl] at hi
  simp only [reshaped, Int.toNat_natCast]
  rw [hvals, getD_blocks ks.length _ hlen i j (by simpa using hi) hj]
  rw [List.getElem_map]
  have e2 : (s :: rest)[i].2.length = ks.length := by rw [← h2 _ (List.getElem_mem hi)]; simp
  have e1 : zs.getD i 0 = (s :: rest)[i].1 := by
    simp only [← h1]
    rw [List.getD_eq_getElem _ _ (by simpa using hi), List.getElem_map]
  have e3 : ks.getD j 0 = ((s :: rest)[i].2[j]'(by omega)).1 := by
    have := h2 _ (List.getElem_mem hi)
    rw [List.getD_eq_getElem _ _ hj]
    simp only [← this, List.getElem_map]
  rw [e1, e3, List.getD_eq_getElem _ _ (by simp; omega), List.getElem_map]
  unfold simulated normed
  rw [List.getD_eq_getElem _ _ hi, List.getD_eq_getElem _ _ (by omega)]

end

end Verif.SimSpectra
