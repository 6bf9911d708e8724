import Verif.Lemmas.LoadCov
import Verif.Spec.LoadCov
import Mathlib.Data.List.GetD
import Mathlib.Tactic.Ring
import Mathlib.Tactic.NormNum
import Mathlib.Tactic.Linarith
/-
C141: the covariance matrix and the error bars of a data set as it is loaded.
-/
namespace Verif.LoadCov
open Verif.Cov
open Verif.Cache (objEq closeTo)

theorem bins_raw (rs : List Raw) : binsOf (rs.map Raw.meas) (fun _ _ => true) = coordsOf rs := by
  unfold binsOf coordsOf
  have h1 : (rs.flatMap fun r => r.k.map fun k => (r.stat, k)) =
      (rs.map Raw.meas).flatMap fun m => m.kIn.map fun k => (m.stat, k) := by
    rw [List.flatMap_map]
    rfl
  rw [h1]
  conv_rhs => rw [← List.zipIdx_map_fst 0 (rs.map Raw.meas)]
  rw [List.flatMap_map]
  refine flatMap_congr' fun e _ => ?_
  rw [List.filter_true]

theorem coordsOf_length (rs : List Raw) : (coordsOf rs).length = (rs.map fun r => r.k.length).sum := by
  unfold coordsOf
  rw [List.length_flatMap]
  congr 1
  exact List.map_congr_left fun r _ => List.length_map ..

/-- Measurements that differ from those of the file in their error column at most. -/
def LikeRaw (m : Meas) (r : Raw) : Prop := m = { r.meas with errorIn := m.errorIn }

/-- A data set made of a clean file and a covariance of the same bins is fresh. -/
theorem fresh_of {rs : List Raw} (hc : Clean rs) {c : Cov} (hwf : c.WF) (h1 : c.coords1 = coordsOf rs)
    (h2 : c.coords2 = coordsOf rs) {d : Data} (hcov : d.cov = c)
    (hm : d.meas.map (fun m => { m with errorIn := [] }) = rs.map fun r => { r.meas with errorIn := [] }) : Fresh d := by
  have hmem : ∀ m ∈ d.meas, ∃ r ∈ rs, m.stat = r.stat ∧ m.kIn = r.k ∧ m.kmin = none ∧ m.kmax = none := by
    intro m hmm
    have h3 : ({ m with errorIn := [] } : Meas) ∈ rs.map fun r => { r.meas with errorIn := [] } := by
      rw [← hm]; exact List.mem_map.2 ⟨m, hmm, rfl⟩
    obtain ⟨r, hr, he⟩ := List.mem_map.1 h3
    refine ⟨r, hr, ?_, ?_, ?_, ?_⟩
    · exact (congrArg Meas.stat he).symm
    · exact (congrArg Meas.kIn he).symm
    · exact (congrArg Meas.kmin he).symm
    · exact (congrArg Meas.kmax he).symm
  have hbins : binsOf d.meas (fun _ _ => true) = coordsOf rs := by
    have h3 : ∀ ms : List Meas, binsOf ms (fun _ _ => true) =
        (ms.map fun m => { m with errorIn := [] }).flatMap fun m => m.kIn.map fun k => (m.stat, k) := by
      intro ms
      unfold binsOf
      rw [List.flatMap_map]
      conv_rhs => rw [← List.zipIdx_map_fst 0 ms]
      rw [List.flatMap_map]
      refine flatMap_congr' fun e _ => ?_
      rw [List.filter_true]
    rw [h3, hm, ← bins_raw, h3, List.map_map]
    rfl
  refine ⟨?_, ?_, ?_, ?_, hcov ▸ hwf, ?_, ?_⟩
  · intro h0
    rw [h0] at hm
    exact hc.nonempty (List.map_eq_nil_iff.1 hm.symm)
  · intro m hmm
    obtain ⟨r, -, -, -, h3, h4⟩ := hmem m hmm
    exact ⟨h3, h4⟩
  · have h3 := congrArg (List.map Meas.stat) hm
    rw [List.map_map, List.map_map] at h3
    have h4 : d.meas.map (·.stat) = rs.map (·.stat) := h3
    rw [h4]
    exact hc.stats
  · intro m hmm
    obtain ⟨r, hr, -, h3, -⟩ := hmem m hmm
    rw [h3]
    exact hc.ks r hr
  · rw [hcov, h1, hbins]
  · rw [hcov, h2, hbins]

/-- The masked column of the measurements of a trimmed data set. -/
theorem column_masked {d d1 : Data} {lo hi : Nat → Option Rat} {p : Nat → Rat → Bool} (hs : LimState d d1 lo hi p)
    (hp : ∀ i k, p i k = inside (lo i) (hi i) k) (col : Meas → List Rat) (f : Meas → List Rat)
    (hcol : ∀ m : Meas, ∀ l h, col { m with kmin := l, kmax := h } = maskSel (m.kIn.map (inside l h)) (f m)) :
    d1.meas.flatMap col = d.meas.zipIdx.flatMap fun e => maskSel (e.1.kIn.map (p e.2)) (f e.1) := by
  rw [hs.meas, List.mapIdx_eq_zipIdx_map, List.flatMap_map]
  refine flatMap_congr' fun e _ => ?_
  rw [hcol]
  congr 2
  funext k
  rw [hp]

/-- What the initialisation without mocks does to a fresh data set: limits, the rows of the covariance, and the columns
together with them. -/
theorem init_no_mocks {invSqrt : Rat → Rat} {range : List (Option Rat × Option Rat)} {Ns : Int} (hNs : Ns ≤ 0) {d d' : Data}
    (hf : Fresh d) (hfull : ∀ m ∈ d.meas, m.Full) (h : d.initialize invSqrt range Ns = (d', none)) :
    (∃ kept : List Nat, d'.cov.N = kept.length ∧ (∀ i ∈ kept, i < d.cov.N) ∧ kept.Pairwise (· < ·) ∧
      (errors d').map some = kept.map (fun i => (d.meas.flatMap (·.errorIn))[i]?) ∧
      (∀ (a b : Nat) (ha : a < kept.length) (hb : b < kept.length), d'.cov.values a b = d.cov.values kept[a] kept[b]) ∧
      ∀ a (ha : a < kept.length), d'.cov.coords1[a]? = d.cov.coords1[kept[a]]?) ∧
    SameBins d' ∧
    d'.meas = d.meas.mapIdx fun i m => { m with kmin := limAt (range.map (·.1)) i, kmax := limAt (range.map (·.2)) i } := by
  unfold Data.initialize Data.setKLimits at h
  split at h
  · cases h
  rename_i d1 hlim
  split at hlim
  · cases hlim
  rename_i d0 hmin
  have hres : d1.rescale invSqrt Ns = (d1, none) := by
    unfold Data.rescale
    rw [if_neg (by omega)]
  rw [hres] at h
  dsimp only at h
  split at h
  swap
  · cases h
  rename_i hsize
  have hd' : d' = d1.combinedPower.2 := by
    have := congrArg Prod.fst h
    exact this.symm
  have hrun : runLims d [.kmin (range.map (·.1)), .kmax (range.map (·.2))] = some d1 := by
    simp [runLims, LimOp.step, hmin, hlim]
  have hs := C40_history d hf _ d1 hrun
  have hmeas : d'.meas = d1.meas := by
    rw [hd']; unfold Data.combinedPower; split <;> rfl
  have hcov : d'.cov = d1.cov := by
    rw [hd']; unfold Data.combinedPower; split <;> rfl
  have hp : ∀ i k, ([LimOp.kmin (range.map (·.1)), LimOp.kmax (range.map (·.2))].all fun op => op.allows i k) =
      inside (curLo [.kmin (range.map (·.1)), .kmax (range.map (·.2))] i)
        (curHi [.kmin (range.map (·.1)), .kmax (range.map (·.2))] i) k := by
    intro i k
    simp only [List.all_cons, List.all_nil, Bool.and_true, allows_kmin, allows_kmax, curLo, curHi, List.foldl]
    unfold inside
    simp
  have hcons := C40_consistent_partial d hf _ d1 hrun (by
    intro op hop i k hin
    rw [← inside_iff, ← hp] at hin
    exact List.all_eq_true.1 hin op hop)
  have herr := column_masked hs hp Meas.error (·.errorIn) fun m l h => rfl
  have hpow := column_masked hs hp Meas.power (·.powerIn) fun m l h => rfl
  obtain ⟨kept, h1, h2, h3, h4, h5, h6⟩ := trim_together hf hs (f := (·.errorIn)) fun m hm => (hfull m hm).2.1
  obtain ⟨kept', h1', -, -, h4', -, -⟩ := trim_together hf hs (f := (·.powerIn)) fun m hm => (hfull m hm).1
  have hbl : (bins d').length = d'.cov.N := by
    unfold bins
    rw [hmeas, hcov, ← hcons.1, hs.wf.coords1]
  refine ⟨⟨kept, by rw [hcov]; exact h1, h2, h3, ?_, ?_, fun a ha => by rw [hcov]; exact h6 a ha⟩, ⟨?_, ?_, ?_, ?_, hbl⟩, ?_⟩
  · unfold errors
    rw [hmeas, herr]
    exact h4
  · intro a b ha hb
    rw [hcov]
    exact h5 a b ha hb
  · unfold bins
    rw [hmeas, hcov]
    exact hcons.1
  · unfold bins
    rw [hmeas, hcov]
    exact hcons.2.1
  · unfold errors
    rw [hmeas, herr, hcov, h1]
    have := congrArg List.length h4
    simpa using this
  · rw [hmeas, hpow, hcov, h1']
    have := congrArg List.length h4'
    simpa using this
  · rw [hmeas, hs.meas]
    rfl

/-- The factor by which the stored numbers are multiplied: the rescaling, unless `numpy.allclose` deems the result equal to
the numbers themselves. -/
def factor (s : Rat) (data : List Rat) : Rat := if objEq (.array (data.map (· * s))) (.array data) then 1 else s

theorem rescaleBy_ok (s : Rat) {c : Cov} (hwf : c.WF) : ∃ c', rescaleBy s c = .ok c' ∧ c'.WF ∧ c'.N = c.N ∧
    c'.coords1 = c.coords1 ∧ c'.coords2 = c.coords2 ∧
    ∀ i j, i < c.N → j < c.N → c'.values i j = factor s c.data * c.values i j := by
  obtain ⟨m, hm, hs⟩ := exists_pack c.N c.data hwf.data
  obtain ⟨N, data, c1, c2, r⟩ := c
  dsimp only at hm
  have hwf1 := hwf.coords1
  have hwf2 := hwf.coords2
  dsimp only at hwf1 hwf2
  have h1 : rescaleBy s ⟨N, data, c1, c2, r⟩ = .ok ((⟨N, data, c1, c2, r⟩ : Cov).setData (data.map (· * s))) := rfl
  have hmap : (pack N m).map (· * s) = pack N fun i j => m i j * s := by
    unfold pack
    rw [List.map_map]
    rfl
  rw [h1]
  unfold Cov.setData factor
  dsimp only
  split_ifs with h
  · refine ⟨_, rfl, hwf, rfl, rfl, rfl, fun i j _ _ => by ring⟩
  · refine ⟨_, rfl, ⟨?_, hwf1, hwf2⟩, rfl, rfl, rfl, fun i j hi hj => ?_⟩
    · rw [List.length_map]; exact hwf.data
    · rw [hm, hmap, values_pack hi hj, values_pack hi hj]
      split_ifs <;> ring

/-! ### error columns -/

theorem errors_length {rs : List Raw} (hc : Clean rs) (he : ∀ r ∈ rs, r.error ≠ none) :
    (rs.flatMap fun r => r.error.getD []).length = (coordsOf rs).length := by
  rw [coordsOf_length, List.length_flatMap]
  congr 1
  refine List.map_congr_left fun r hr => ?_
  cases h : r.error with
  | none => exact absurd h (he r hr)
  | some l => exact hc.error r hr l h

theorem full_of {rs : List Raw} (hc : Clean rs) (he : ∀ r ∈ rs, r.error ≠ none) : ∀ m ∈ rs.map Raw.meas, m.Full := by
  intro m hm
  obtain ⟨r, hr, rfl⟩ := List.mem_map.1 hm
  refine ⟨hc.power r hr, ?_, hc.mu r hr⟩
  unfold Raw.meas
  dsimp only
  cases h : r.error with
  | none => exact absurd h (he r hr)
  | some l => exact hc.error r hr l h

/-- If the rescaled diagonal matrix is deemed equal to the matrix, so is every diagonal element. -/
theorem close_diag {E : List Rat} {s : Rat}
    (h : objEq (.array ((pack E.length (npDiag (E.map fun e => e ^ 2))).map (· * s)))
      (.array (pack E.length (npDiag (E.map fun e => e ^ 2)))) = true) {i : Nat} (hi : i < E.length) :
    closeTo (E[i] ^ 2 * s) (E[i] ^ 2) = true := by
  have hget := pack_get (N := E.length) (npDiag (E.map fun e => e ^ 2)) (Nat.le_refl i) hi
  have hdiag : npDiag (E.map fun e => e ^ 2) i i = E[i] ^ 2 := by
    unfold npDiag
    rw [if_pos rfl, List.getD_eq_getElem _ _ (by simpa using hi), List.getElem_map]
  rw [hdiag] at hget
  obtain ⟨P, hP⟩ : ∃ P, P = pack E.length (npDiag (E.map fun e => e ^ 2)) := ⟨_, rfl⟩
  rw [← hP] at h hget
  unfold objEq at h
  dsimp only at h
  rw [if_pos (List.length_map ..), List.all_eq_true] at h
  obtain ⟨j, hj⟩ : ∃ j, P[j]? = some (E[i] ^ 2) := ⟨_, hget⟩
  obtain ⟨hlt, hg⟩ := List.getElem?_eq_some_iff.1 hj
  have hmem : ((P[j] * s, P[j]) : Rat × Rat) ∈ (P.map (· * s)).zip P := by
    have h1 : j < ((P.map (· * s)).zip P).length := by rw [List.length_zip, List.length_map]; omega
    have h2 : ((P.map (· * s)).zip P)[j] = (P[j] * s, P[j]) := by rw [List.getElem_zip, List.getElem_map]
    rw [← h2]
    exact List.getElem_mem h1
  have := h _ hmem
  rw [hg] at this
  exact this

/-- C141: with error columns and no covariance file, the loaded data set has a diagonal covariance of exactly its bins
within the fitting range, and the diagonal element of a bin is the rescaling times the square of its error bar (unless the
rescaling is deemed negligible).  Missing from the full claim: the error bars themselves are not rescaled. -/
theorem C141_columns_partial (sqrt invSqrt : Rat → Rat) {s : Rat} {range : List (Option Rat × Option Rat)} {Ns : Int}
    (hNs : Ns ≤ 0) {rs : List Raw} (hc : Clean rs) (he : ∀ r ∈ rs, r.error ≠ none) {d' : Data}
    (h : load sqrt invSqrt s none range Ns rs = .ok d') :
    SameBins d' ∧
    (∃ c, (c = s ∨ c = 1 ∧ ∀ e ∈ rs.flatMap (fun r => r.error.getD []), closeTo (e ^ 2 * s) (e ^ 2) = true) ∧
      ∀ a b (ha : a < (errors d').length) (hb : b < (errors d').length),
        d'.cov.values a b = if a = b then c * (errors d')[a] ^ 2 else 0) ∧
    d'.meas = (rs.map Raw.meas).mapIdx fun i m =>
      { m with kmin := limAt (range.map (·.1)) i, kmax := limAt (range.map (·.2)) i } := by
  have hany : rs.any (fun r => r.error.isNone) = false := by
    rw [List.any_eq_false]
    intro r hr h0
    exact he r hr (Option.isNone_iff_eq_none.1 h0)
  obtain ⟨E, hE⟩ : ∃ E, E = rs.flatMap fun r => r.error.getD [] := ⟨_, rfl⟩
  have hEl : E.length = (coordsOf rs).length := by rw [hE]; exact errors_length hc he
  obtain ⟨c0, hc0⟩ : ∃ c0, c0 = construct E.length (npDiag (E.map fun e => e ^ 2)) (coordsOf rs) (coordsOf rs) := ⟨_, rfl⟩
  have hcols : fromColumns rs = .ok c0 := by
    unfold fromColumns
    rw [hany, hc0, hE]
    rfl
  have hwf : c0.WF := by rw [hc0]; exact construct_wf hEl.symm hEl.symm
  have hN : c0.N = E.length := by rw [hc0]; rfl
  obtain ⟨c', hr, hwf', hN', hc1, hc2, hv⟩ := rescaleBy_ok s hwf
  unfold load setCovariance at h
  rw [hcols] at h
  dsimp only at h
  rw [hr] at h
  dsimp only at h
  have hfresh : Fresh (mkData rs c') := fresh_of hc hwf' (by rw [hc1, hc0]; rfl) (by rw [hc2, hc0]; rfl) rfl (by
    rw [show (mkData rs c').meas = rs.map Raw.meas from rfl, List.map_map]; rfl)
  cases hi : (mkData rs c').initialize invSqrt range Ns with
  | mk d2 o =>
    rw [hi] at h
    cases o with
    | some e => cases h
    | none =>
      have hd2 : d2 = d' := by cases h; rfl
      rw [hd2] at hi
      obtain ⟨⟨kept, h1, h2, h3, h4, h5, h10⟩, h6, h7⟩ := init_no_mocks hNs hfresh (full_of hc he) hi
      refine ⟨h6, ⟨factor s c0.data, ?_, ?_⟩, h7⟩
      · unfold factor
        split_ifs with hcl
        · right
          refine ⟨rfl, fun e hee => ?_⟩
          rw [← hE] at hee
          obtain ⟨i, hi', rfl⟩ := List.getElem_of_mem hee
          have hdata : c0.data = pack E.length (npDiag (E.map fun e => e ^ 2)) := by rw [hc0]; rfl
          rw [hdata] at hcl
          exact close_diag hcl hi'
        · exact Or.inl rfl
      · have hl : (errors d').length = kept.length := by rw [← h1, h6.errors]
        have hflat : (mkData rs c').meas.flatMap (·.errorIn) = E := by
          rw [hE, show (mkData rs c').meas = rs.map Raw.meas from rfl, List.flatMap_map]
          refine flatMap_congr' fun r hr => ?_
          unfold Raw.meas
          dsimp only
          cases h : r.error with
          | none => exact absurd h (he r hr)
          | some l => rfl
        have hget : ∀ a (ha : a < (errors d').length) (hk : kept[a] < E.length), (errors d')[a] = E[kept[a]] := by
          intro a ha hk
          have h8 := congrArg (fun l => l[a]?) h4
          rw [List.getElem?_map, List.getElem?_map, List.getElem?_eq_getElem ha,
            List.getElem?_eq_getElem (show a < kept.length by omega), Option.map_some, Option.map_some, hflat,
            List.getElem?_eq_getElem hk] at h8
          exact Option.some.inj (Option.some.inj h8)
        intro a b ha hb
        have ha' : a < kept.length := by omega
        have hb' : b < kept.length := by omega
        have hka : kept[a] < E.length := by
          have := h2 _ (List.getElem_mem ha')
          rw [show (mkData rs c').cov.N = c'.N from rfl, hN', hN] at this
          exact this
        have hkb : kept[b] < E.length := by
          have := h2 _ (List.getElem_mem hb')
          rw [show (mkData rs c').cov.N = c'.N from rfl, hN', hN] at this
          exact this
        rw [h5 a b ha' hb', show (mkData rs c').cov = c' from rfl, hv _ _ (by omega) (by omega)]
        have hval : c0.values kept[a] kept[b] = if kept[a] = kept[b] then E[kept[a]] ^ 2 else 0 := by
          rw [hc0]
          unfold construct
          rw [values_pack hka hkb]
          unfold npDiag
          have hsym : ∀ x y : Nat, (if x = y then (E.map fun e => e ^ 2).getD x 0 else 0) =
              if y = x then (E.map fun e => e ^ 2).getD y 0 else 0 := by
            intro x y
            by_cases hxy : x = y
            · subst hxy; rfl
            · rw [if_neg hxy, if_neg fun h => hxy h.symm]
          rw [hsym kept[b] kept[a], ite_self, List.getD_eq_getElem _ _ (by simpa using hka), List.getElem_map]
        rw [hval]
        have hinj : kept[a] = kept[b] ↔ a = b := by
          constructor
          · intro hab
            rcases Nat.lt_trichotomy a b with hlt | heq | hgt
            · have := List.pairwise_iff_getElem.1 h3 a b ha' hb' hlt
              omega
            · exact heq
            · have := List.pairwise_iff_getElem.1 h3 b a hb' ha' hgt
              omega
          · rintro rfl; rfl
        by_cases hab : a = b
        · rw [if_pos (hinj.2 hab), if_pos hab, hget a ha hka]
        · rw [if_neg fun h => hab (hinj.1 h), if_neg hab]
          ring

/-- C141: without covariance file and without an error column, loading fails; with a `TypeError`, not the `ValueError` that
says what is missing. -/
theorem C141_no_errors (sqrt invSqrt : Rat → Rat) (s : Rat) (range : List (Option Rat × Option Rat)) (Ns : Int)
    {rs : List Raw} {r : Raw} (hr : r ∈ rs) (he : r.error = none) :
    load sqrt invSqrt s none range Ns rs = .error (.err .typeError) := by
  have hany : rs.any (fun r => r.error.isNone) = true := List.any_eq_true.2 ⟨r, hr, by rw [he]; rfl⟩
  unfold load setCovariance fromColumns
  rw [if_pos hany]

/-! ### a covariance file -/

theorem rat_abs (x : Rat) : Rat.abs x = |x| := by
  unfold Rat.abs
  split_ifs with h
  · exact (abs_of_nonneg h).symm
  · exact (abs_of_neg (not_le.1 h)).symm

/-- Nothing is considered equal to a missing column. -/
theorem absent_ne {n : Nat} {l : List Rat} (h : l.length = n) : objEq (.array l) (.array (absent n)) = false := by
  unfold objEq absent
  dsimp only
  rw [if_neg (by simp only [List.length_cons, List.length_replicate]; omega)]
  cases l with
  | nil => rfl
  | cons x l =>
    cases l with
    | nil =>
      dsimp only
      rw [List.all_cons, List.all_cons]
      by_cases h1 : closeTo x 0 = true
      · have : closeTo x 1 = false := by
          by_contra h2
          rw [Bool.not_eq_false] at h2
          unfold closeTo at h1 h2
          rw [decide_eq_true_eq] at h1 h2
          have h3 : Rat.abs (x - 0) = |x - 0| := rat_abs _
          have h4 : Rat.abs (x - 1) = |x - 1| := rat_abs _
          have h5 : Rat.abs 0 = 0 := by decide
          have h6 : Rat.abs 1 = 1 := by decide
          rw [h3, h5] at h1
          rw [h4, h6] at h2
          have := abs_le.1 h1
          have := abs_le.1 h2
          linarith [this.1, (abs_le.1 h1).2]
        rw [this]
        simp
      · rw [Bool.not_eq_true] at h1
        rw [h1]
        rfl
    | cons y l => rfl

theorem sum_replicate' (n x : Nat) : (List.replicate n x).sum = n * x := by
  induction n with
  | zero => simp
  | succ n ih => rw [List.replicate_succ, List.sum_cons, ih, Nat.succ_mul, Nat.add_comm]

theorem chunks (l : List Rat) (n : Nat) : ∀ M, (List.range M).flatMap (fun i => (l.drop (n * i)).take n) = l.take (n * M)
  | 0 => by simp
  | M + 1 => by
    rw [List.range_succ, List.flatMap_append, chunks l n M, List.flatMap_cons, List.flatMap_nil, List.append_nil,
      Nat.mul_succ, List.take_add]

/-- C141: with a covariance file of the data's own bins, statistics with the same number of bins, and no error columns: the
loaded data set has the file's matrix restricted to its bins within the fitting range and multiplied by the rescaling (if
not negligible), and the error bar of every bin is the square root of its diagonal element. -/
theorem C141_file (sqrt invSqrt : Rat → Rat) {s : Rat} {range : List (Option Rat × Option Rat)} {Ns : Int}
    (hNs : Ns ≤ 0) {rs : List Raw} (hc : Clean rs) {n : Nat} (hn : ∀ r ∈ rs, r.k.length = n) (he : ∀ r ∈ rs, r.error = none)
    {c0 : Cov} (hwf : c0.WF) (hc1 : c0.coords1 = coordsOf rs) (hc2 : c0.coords2 = coordsOf rs) {d' : Data}
    (h : load sqrt invSqrt s (some (some c0)) range Ns rs = .ok d') :
    SameBins d' ∧
    (∃ kept : List Nat, kept.Pairwise (· < ·) ∧ kept.length = d'.cov.N ∧ (∀ i ∈ kept, i < c0.N) ∧
      (∀ a (ha : a < kept.length), (bins d')[a]? = c0.coords1[kept[a]]?) ∧
      ∀ a b (ha : a < kept.length) (hb : b < kept.length),
        d'.cov.values a b = factor s c0.data * c0.values kept[a] kept[b]) ∧
    (errors d' = (List.range d'.cov.N).map fun a => sqrt (d'.cov.values a a)) ∧
    d'.meas.map (fun m => (m.kmin, m.kmax)) =
      (List.range rs.length).map fun i => (limAt (range.map (·.1)) i, limAt (range.map (·.2)) i) := by
  unfold load setCovariance at h
  dsimp only at h
  have hsz : c0.N = (rs.map fun r => r.k.length).sum := by rw [← coordsOf_length, ← hc1, hwf.coords1]
  rw [if_pos hsz] at h
  obtain ⟨c', hr, hwf', hN', hc1', hc2', hv⟩ := rescaleBy_ok s hwf
  rw [hr] at h
  dsimp only at h
  have hNn : c0.N = n * rs.length := by
    rw [hsz, List.map_congr_left hn, List.map_const', sum_replicate', Nat.mul_comm]
  obtain ⟨var, hvar, hl, hval⟩ := diag_ok hwf'
  obtain ⟨d, hd⟩ : ∃ d : Data, d = { mkData rs c' with
      meas := (mkData rs c').meas.mapIdx fun i m =>
        { m with errorIn := ((var.drop (n * i)).take n).map sqrt } } := ⟨_, rfl⟩
  have hset : setErrorsFromCov sqrt (mkData rs c') = .ok d := by
    unfold setErrorsFromCov
    rw [show (mkData rs c').cov = c' from rfl, hvar, hd]
    dsimp only
    congr 2
    refine List.ext_getElem (by simp) fun i h1 h2 => ?_
    rw [List.getElem_mapIdx, List.getElem_mapIdx]
    have hi : i < rs.length := by simpa [mkData] using h1
    have hmi : (mkData rs c').meas[i]'(by simpa [mkData] using hi) = (rs[i]).meas := by simp [mkData]
    rw [hmi]
    have hsize : (rs[i]).meas.size = n := by
      rw [show (rs[i]).meas.size = ((rs[i]).meas.k).length from rfl]
      have : (rs[i]).meas.k = (rs[i]).k := by
        unfold Meas.k Meas.trimIdx maskSel Raw.meas
        dsimp only
        have : ∀ l : List Rat, (((l.map (inside none none)).zip l).filter fun e => e.1).map (·.2) = l := by
          intro l
          induction l with
          | nil => rfl
          | cons a l ih =>
            rw [List.map_cons, List.zip_cons_cons, List.filter_cons, if_pos (show (inside none none a, a).1 = true from rfl), List.map_cons, ih]
        exact this _
      rw [this]
      exact hn _ (List.getElem_mem hi)
    rw [hsize, show n * (i + 1) - n * i = n by rw [Nat.mul_succ]; omega]
    unfold Meas.setError
    rw [if_neg]
    have hlen : (((var.drop (n * i)).take n).map sqrt).length = (rs[i]).k.length := by
      rw [hn _ (List.getElem_mem hi), List.length_map, List.length_take, List.length_drop, hl, hN', hNn]
      have : n * (i + 1) ≤ n * rs.length := Nat.mul_le_mul_left _ hi
      rw [Nat.mul_succ] at this
      omega
    have hei : (rs[i]).meas.errorIn = absent (rs[i]).k.length := by
      unfold Raw.meas
      dsimp only
      rw [he _ (List.getElem_mem hi)]
      rfl
    rw [hei, absent_ne hlen]
    simp
  rw [hset] at h
  dsimp only at h
  have hflat : d.meas.flatMap (·.errorIn) = var.map sqrt := by
    rw [hd]
    dsimp only
    rw [List.mapIdx_eq_zipIdx_map, List.flatMap_map]
    dsimp only
    have h1 : ((mkData rs c').meas.zipIdx.flatMap fun e => ((var.drop (n * e.2)).take n).map sqrt) =
        (List.range rs.length).flatMap fun i => ((var.drop (n * i)).take n).map sqrt := by
      have h2 : (mkData rs c').meas.zipIdx.map (·.2) = List.range rs.length := by
        rw [List.zipIdx_map_snd, List.range_eq_range']
        simp [mkData]
      rw [← h2, List.flatMap_map]
    rw [h1, ← List.map_flatMap, chunks, List.take_of_length_le (by omega)]
  have hfresh : Fresh d := by
    refine fresh_of hc hwf' (by rw [hc1', hc1]) (by rw [hc2', hc2]) (by rw [hd]; rfl) ?_
    rw [hd]
    dsimp only
    refine List.ext_getElem (by simp [mkData]) fun i h1 h2 => ?_
    simp [mkData]
  have hfull : ∀ m ∈ d.meas, m.Full := by
    intro m hm
    rw [hd] at hm
    dsimp only at hm
    rw [List.mem_mapIdx] at hm
    obtain ⟨i, hi, rfl⟩ := hm
    have hi' : i < rs.length := by simpa [mkData] using hi
    have hmi : (mkData rs c').meas[i] = (rs[i]).meas := by simp [mkData]
    rw [hmi]
    have hmem := List.getElem_mem hi'
    refine ⟨hc.power _ hmem, ?_, hc.mu _ hmem⟩
    dsimp only [Raw.meas]
    rw [hn _ hmem, List.length_map, List.length_take, List.length_drop, hl, hN', hNn]
    have : n * (i + 1) ≤ n * rs.length := Nat.mul_le_mul_left _ hi'
    rw [Nat.mul_succ] at this
    omega
  cases hi : d.initialize invSqrt range Ns with
  | mk d2 o =>
    rw [hi] at h
    cases o with
    | some e => cases h
    | none =>
      have hd2 : d2 = d' := by cases h; rfl
      rw [hd2] at hi
      obtain ⟨⟨kept, h1, h2, h3, h4, h5, h10⟩, h6, h7⟩ := init_no_mocks hNs hfresh hfull hi
      have hdcov : d.cov = c' := by rw [hd]; rfl
      rw [hdcov] at h2 h5
      refine ⟨h6, ⟨kept, h3, h1.symm, fun i hi => by rw [← hN']; exact h2 i hi, ?_, ?_⟩, ?_, ?_⟩
      · intro a ha
        rw [← h6.rows, h10 a ha, hdcov, hc1']
      · intro a b ha hb
        rw [h5 a b ha hb, hv _ _ (by rw [← hN']; exact h2 _ (List.getElem_mem _))
          (by rw [← hN']; exact h2 _ (List.getElem_mem _))]
      · refine List.ext_getElem (by rw [h6.errors]; simp) fun a ha hb => ?_
        have hak : a < kept.length := by rw [← h1, ← h6.errors]; exact ha
        have h8 := congrArg (fun l => l[a]?) h4
        have hk : kept[a] < var.length := by rw [hl]; exact h2 _ (List.getElem_mem _)
        rw [List.getElem?_map, List.getElem?_map, List.getElem?_eq_getElem ha,
          List.getElem?_eq_getElem hak, Option.map_some, Option.map_some, hflat, List.getElem?_map,
          List.getElem?_eq_getElem hk] at h8
        have h9 : (errors d')[a] = sqrt var[kept[a]] := Option.some.inj (Option.some.inj h8)
        rw [h9, List.getElem_map, List.getElem_range, h5 a a hak hak]
        congr 1
        have hkN : kept[a] < c'.N := h2 _ (List.getElem_mem _)
        have h11 := hval kept[a] hkN
        rw [(elem_values hwf' hkN hkN).1, List.getD_eq_getElem _ _ hk] at h11
        exact (Except.ok.inj h11).symm
      · rw [h7, hd]
        dsimp only
        refine List.ext_getElem (by simp [mkData]) fun i h1 h2 => ?_
        simp
/-- C141: a covariance file that cannot be read, or is not of the size of the data, is refused. -/
theorem C141_refused (sqrt invSqrt : Rat → Rat) (s : Rat) (range : List (Option Rat × Option Rat)) (Ns : Int)
    (rs : List Raw) :
    load sqrt invSqrt s (some none) range Ns rs = .error .runtimeError ∧
    ∀ c0 : Cov, c0.N ≠ (rs.map fun r => r.k.length).sum →
      load sqrt invSqrt s (some (some c0)) range Ns rs = .error (.err .valueError) := by
  refine ⟨rfl, fun c0 h => ?_⟩
  unfold load setCovariance
  dsimp only
  rw [if_neg h]

/-! ### concrete files -/

/-- Monopole and quadrupole on three bins each, with error columns. -/
def demo : List Raw :=
  [⟨0, [1, 2, 3], none, [10, 20, 30], some [1, 2, 3]⟩, ⟨2, [1, 2, 3], none, [4, 5, 6], some [4, 5, 6]⟩]

theorem demo_clean : Clean demo :=
  ⟨by simp [demo], by simp [demo], by simp [demo] <;> norm_num, by simp [demo], by simp [demo], by simp [demo]⟩

/-- What is left of an outcome for display. -/
def view (r : Except LoadErr Data) : Option (List Rat × List Coord × List Rat) :=
  match r with
  | .ok d => some (errors d, d.cov.coords1, d.cov.data)
  | .error _ => none

example : view (load id id 1 none [(some 2, none), (none, some 1)] 0 demo) =
    some ([2, 3, 4], [(0, 2), (0, 3), (2, 1)], [4, 0, 0, 9, 0, 16]) := by decide +kernel

/-- The same without error columns, and a covariance file. -/
def bare : List Raw := demo.map fun r => { r with error := none }
def demoCov : Cov := construct 6 (fun i j => if i = j then 4 * (i + 1) else 1) (coordsOf demo) (coordsOf demo)

example : Clean bare ∧ (∀ r ∈ bare, r.error = none) ∧ (∀ r ∈ bare, r.k.length = 3) ∧ demoCov.coords1 = coordsOf bare :=
  ⟨⟨by simp [bare, demo], by simp [bare, demo], by simp [bare, demo] <;> norm_num, by simp [bare, demo], by simp [bare, demo],
    by simp [bare, demo]⟩, by simp [bare, demo], by simp [bare, demo], rfl⟩

example : view (load (· / 2) id 3 (some (some demoCov)) [(some 2, none), (none, some 1)] 0 bare) =
    some ([12, 18, 24], [(0, 2), (0, 3), (2, 1)], [24, 3, 3, 36, 3, 48]) := by decide +kernel

/-- The covariance made of the error columns is rescaled, the error bars are not: with the rescaling 4 the variance of a bin
with error bar 1 is 4. -/
theorem C141_rescaled_counterexample :
    view (load id id 4 none [(none, none)] 0 [⟨0, [1], none, [10], some [1]⟩]) = some ([1], [(0, 1)], [4]) := by
  decide +kernel

/-- The rescaling of a covariance with small elements is dropped: a variance of `1e-8` times 1.5 stays `1e-8`. -/
theorem C141_small_counterexample :
    view (load id id (3 / 2) none [(none, none)] 0 [⟨0, [1], none, [10], some [1 / 10000]⟩]) =
      some ([1 / 10000], [(0, 1)], [1 / 100000000]) := by decide +kernel

/-- A covariance file of the right size is accepted whatever bins it is for: here one for wavenumbers 5 and 6 and multipoles
4 and 6 is used for the monopole and quadrupole at wavenumber 1, and gives them their error bars. -/
theorem C141_other_bins_counterexample :
    view (load id id 1 (some (some (construct 2 (fun i j => if i = j then 9 else 0) [(4, 5), (6, 6)] [(4, 5), (6, 6)])))
      [(none, none)] 0 [⟨0, [1], none, [10], some [1]⟩, ⟨2, [1], none, [20], some [1]⟩]) =
      some ([9, 9], [(4, 5), (6, 6)], [9, 0, 9]) := by decide +kernel

/-- A file with the statistics the other way round is accepted as well: the variances 1 of the monopole and 100 of the
quadrupole become the error bars of the quadrupole and the monopole. -/
theorem C141_swapped_counterexample :
    view (load id id 1 (some (some (construct 2 (npDiag [1, 100]) [(0, 1), (2, 1)] [(0, 1), (2, 1)])))
      [(none, none)] 0 [⟨2, [1], none, [20], none⟩, ⟨0, [1], none, [10], none⟩]) =
      some ([1, 100], [(0, 1), (2, 1)], [1, 0, 100]) := by decide +kernel

end Verif.LoadCov
