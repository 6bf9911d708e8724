import Verif.Lemmas.DataLims
/-
Properties of data sets: k-limits (C40), rescaling of the inverse covariance (C15), selection of statistics (C42),
error bars from the covariance (C43), alignment of data and theory vectors (C33).
-/
namespace Verif.Cov
open Verif.Cache (Val objEq closeTo)

/-! ### C40: measurements -/

/-- **C40 (measurements).**  A measurement exposes exactly the input bins whose `k` lies within the current inclusive
limits, in input order, and `k`, `mu`, `power` and `error` are masked by the same positions `pos`. -/
theorem C40_masks (m : Meas) (hf : m.Full) :
    ∃ pos : List Nat, pos.Pairwise (· < ·) ∧
      (∀ i, i ∈ pos ↔ ∃ k, m.kIn[i]? = some k ∧ (∀ lo, m.kmin = some lo → lo ≤ k) ∧ (∀ hi, m.kmax = some hi → k ≤ hi)) ∧
      m.size = pos.length ∧
      m.k.map some = pos.map (fun i => m.kIn[i]?) ∧ m.power.map some = pos.map (fun i => m.powerIn[i]?) ∧
      m.error.map some = pos.map (fun i => m.errorIn[i]?) ∧
      (∀ l, m.muIn = some l → ∃ l', m.mu = some l' ∧ l'.map some = pos.map fun i => l[i]?) := by
  obtain ⟨hp, he, hm⟩ := hf
  have key : ∀ {β : Type} (l : List β), l.length = m.kIn.length → (maskSel m.trimIdx l).map some =
      ((List.range m.kIn.length).filter fun i => (m.kIn[i]?).any (inside m.kmin m.kmax)).map fun i => l[i]? := by
    intro β l hl
    unfold Meas.trimIdx
    rw [maskSel_map _ _ _ hl, zip_pos _ _ hl]
  refine ⟨(List.range m.kIn.length).filter fun i => (m.kIn[i]?).any (inside m.kmin m.kmax),
    List.Pairwise.filter _ List.pairwise_lt_range, ?_, ?_, key _ rfl, key _ hp, key _ he, ?_⟩
  · intro i
    rw [List.mem_filter, List.mem_range]
    constructor
    · rintro ⟨hi, h⟩
      rw [List.getElem?_eq_getElem hi] at h ⊢
      refine ⟨_, rfl, ?_⟩
      simp only [Option.any_some, inside, Bool.and_eq_true] at h
      constructor
      · intro lo hlo; rw [hlo] at h; simpa using h.1
      · intro hi hhi; rw [hhi] at h; simpa using h.2
    · rintro ⟨k, hk, h1, h2⟩
      obtain ⟨hi, -⟩ := List.getElem?_eq_some_iff.1 hk
      refine ⟨hi, ?_⟩
      rw [hk]
      simp only [Option.any_some, inside, Bool.and_eq_true]
      constructor
      · cases hlo : m.kmin with
        | none => rfl
        | some lo => simpa using h1 lo hlo
      · cases hhi : m.kmax with
        | none => rfl
        | some hi => simpa using h2 hi hhi
  · have := congrArg List.length (key m.kIn rfl)
    simpa [Meas.size, Meas.k] using this
  · intro l hl
    refine ⟨maskSel m.trimIdx l, by simp [Meas.mu, hl], key l (hm l hl)⟩

/-- Two bins of three survive; all columns move together. -/
def demoMeas : Meas := ⟨0, [1, 2, 3], some [5, 6, 7], [10, 20, 30], [1, 2, 4], some 2, some 3⟩
example : demoMeas.Full ∧ demoMeas.k = [2, 3] ∧ demoMeas.mu = some [6, 7] ∧ demoMeas.power = [20, 30] ∧
    demoMeas.error = [2, 4] := by
  refine ⟨⟨rfl, rfl, ?_⟩, ?_⟩
  · intro l hl; cases hl; rfl
  · decide +kernel

/-! ### C40: data sets -/

/-- **C40 (history).**  From a freshly loaded data set, after any sequence of limit changes and reads that all succeed:
every measurement carries exactly the limits set last (so by `C40_masks` it exposes the bins within them), and the
covariance has exactly the bins allowed by *every* limit ever set, with the elements of the original covariance. -/
theorem C40_history (d : Data) (hf : Fresh d) (ops : List LimOp) (d' : Data) (h : runLims d ops = some d') :
    LimState d d' (curLo ops) (curHi ops) (fun i k => ops.all fun op => op.allows i k) := by
  have key : ∀ (ops h : List LimOp) (d1 : Data),
      LimState d d1 (curLo h) (curHi h) (fun i k => h.all fun op => op.allows i k) → runLims d1 ops = some d' →
      LimState d d' (curLo (h ++ ops)) (curHi (h ++ ops)) (fun i k => (h ++ ops).all fun op => op.allows i k) := by
    intro ops
    induction ops with
    | nil =>
      intro h d1 hs hr
      cases hr
      simpa using hs
    | cons op ops ih =>
      intro h d1 hs hr
      unfold runLims at hr
      split at hr
      · rename_i d2 he
        rw [List.append_cons]
        apply ih (h ++ [op]) d2 _ hr
        have hlen : d1.meas.length = d.meas.length := by rw [hs.meas]; simp
        have hall : (fun (i : Nat) (k : Rat) => (h ++ [op]).all fun op => op.allows i k) =
            fun i k => (h.all fun op => op.allows i k) && op.allows i k := by
          funext i k; simp
        rw [hall]
        cases op with
        | kmin v =>
          have hlo : curLo (h ++ [.kmin v]) = limAt v := by funext i; simp [curLo]
          have hhi : curHi (h ++ [.kmin v]) = curHi h := by funext i; simp [curHi]
          rw [hlo, hhi]
          simp only [LimOp.step, Data.setKmin] at he
          split at he
          · cases he
          · rename_i lims hb
            rw [hlen] at hb
            have hms : List.zipWith (fun m l => { m with kmin := l }) d1.meas lims =
                d.meas.mapIdx fun i m => { m with kmin := limAt v i, kmax := curHi h i } := by
              have hl := broadcast_length hb
              apply List.ext_getElem
              · simp [hl, hlen]
              · intro i h1 h2
                have hi : i < d.meas.length := by simpa using h2
                have hg := broadcast_limAt hb hi
                have : lims.getD i none = lims[i]'(by omega) := by
                  simp [List.getD, List.getElem?_eq_getElem (show i < lims.length by omega)]
                simp only [List.getElem_zipWith, List.getElem_mapIdx, hs.meas]
                rw [← hg, this]
            split at he
            · cases he
            · rename_i c' hc'
              have hb2 : broadcast d.meas.length [none] = .ok (List.replicate d.meas.length (none : Option Rat)) := rfl
              have := fun kl kh cp => (hs.trim hf (broadcast_idem hb) hb2 hc' (fun i k => (LimOp.kmin v).allows i k) (by
                intro i hi k
                rw [broadcast_limAt hb hi, broadcast_limAt hb2 hi]
                exact allows_kmin v i k) _ (limAt v) (curHi h) hms kl kh cp).1
              split at he
              · cases he; exact this _ _ _
              · cases he; exact this _ _ _
        | kmax v =>
          have hlo : curLo (h ++ [.kmax v]) = curLo h := by funext i; simp [curLo]
          have hhi : curHi (h ++ [.kmax v]) = limAt v := by funext i; simp [curHi]
          rw [hlo, hhi]
          simp only [LimOp.step, Data.setKmax] at he
          split at he
          · cases he
          · rename_i lims hb
            rw [hlen] at hb
            have hms : List.zipWith (fun m l => { m with kmax := l }) d1.meas lims =
                d.meas.mapIdx fun i m => { m with kmin := curLo h i, kmax := limAt v i } := by
              have hl := broadcast_length hb
              apply List.ext_getElem
              · simp [hl, hlen]
              · intro i h1 h2
                have hi : i < d.meas.length := by simpa using h2
                have hg := broadcast_limAt hb hi
                have : lims.getD i none = lims[i]'(by omega) := by
                  simp [List.getD, List.getElem?_eq_getElem (show i < lims.length by omega)]
                simp only [List.getElem_zipWith, List.getElem_mapIdx, hs.meas]
                rw [← hg, this]
            split at he
            · cases he
            · rename_i c' hc'
              have hb2 : broadcast d.meas.length [none] = .ok (List.replicate d.meas.length (none : Option Rat)) := rfl
              have := fun kl kh cp => (hs.trim hf hb2 (broadcast_idem hb) hc' (fun i k => (LimOp.kmax v).allows i k) (by
                intro i hi k
                rw [broadcast_limAt hb hi, broadcast_limAt hb2 hi]
                exact allows_kmax v i k) _ (curLo h) (limAt v) hms kl kh cp).1
              split at he
              · cases he; exact this _ _ _
              · cases he; exact this _ _ _
        | readPower =>
          have hlo : curLo (h ++ [.readPower]) = curLo h := by funext i; simp [curLo]
          have hhi : curHi (h ++ [.readPower]) = curHi h := by funext i; simp [curHi]
          rw [hlo, hhi]
          simp only [LimOp.step, Prod.mk.injEq, and_true] at he
          have : d2.meas = d1.meas ∧ d2.cov = d1.cov := by
            subst he
            unfold Data.combinedPower
            split <;> simp
          have ha : (fun (i : Nat) (k : Rat) => (h.all fun op => op.allows i k) && LimOp.readPower.allows i k) =
              fun i k => h.all fun op => op.allows i k := by
            funext i k; simp [LimOp.allows]
          rw [ha]
          obtain ⟨e1, e2⟩ := this
          exact ⟨e1 ▸ hs.meas, hs.nonempty, e2 ▸ hs.wf, e2 ▸ hs.coords1, e2 ▸ hs.coords2, e2 ▸ hs.elems⟩
      · cases hr
  have h0 : LimState d d (curLo []) (curHi []) (fun i k => ([] : List LimOp).all fun op => op.allows i k) := by
    refine ⟨?_, ?_, hf.wf, ?_, ?_, List.range d.cov.N, List.pairwise_lt_range, by simp, ?_, ?_, ?_⟩
    · apply List.ext_getElem
      · simp
      · intro i h1 h2
        have := hf.no_limits d.meas[i] (List.getElem_mem h1)
        simp only [List.getElem_mapIdx, curLo, curHi, List.foldl_nil]
        conv => lhs; rw [show d.meas[i] = { d.meas[i] with kmin := d.meas[i].kmin, kmax := d.meas[i].kmax } from rfl]
        rw [this.1, this.2]
    · intro m i hmi
      have := List.mem_map_of_mem (f := Prod.fst) hmi
      rw [zipIdx_map_fst] at this
      obtain ⟨k, hk⟩ := List.exists_mem_of_ne_nil _ (hf.ks m this).1
      exact ⟨k, hk, rfl⟩
    · exact hf.coords1
    · exact hf.coords2
    · intro i hi; exact List.mem_range.1 hi
    · intro a
      by_cases ha : a < d.cov.N
      · simp [ha]
      · have : d.cov.coords1.length = d.cov.N := hf.wf.coords1
        rw [List.getElem?_eq_none (by omega), List.getElem?_eq_none (by simp; omega)]; rfl
    · intro a b ha hb
      simp
  simpa using key ops [] d h0 h

/-- **C40 (partial).**  If no limit set earlier is tighter than the limits in force at the end (limits were only ever
tightened, or set once), the rows and columns of the covariance are exactly the bins exposed by the measurements, in order,
and their number is the length of the data vector.  Missing: widening a limit (`C40_widening_counterexample`), limit changes
that raise (`C40_exception_counterexample`), and the stale combined vector (`C40_close_limits_counterexample`). -/
theorem C40_consistent_partial (d : Data) (hf : Fresh d) (ops : List LimOp) (d' : Data) (h : runLims d ops = some d')
    (htight : ∀ op ∈ ops, ∀ i k, Within (curLo ops i) (curHi ops i) k → op.allows i k = true) :
    d'.cov.coords1 = d'.meas.flatMap (fun m => m.k.map fun k => (m.stat, k)) ∧
    d'.cov.coords2 = d'.meas.flatMap (fun m => m.k.map fun k => (m.stat, k)) ∧
    d'.cov.N = (d'.meas.map Meas.size).sum := by
  have hs := C40_history d hf ops d' h
  have hcur : ∀ i k, (ops.all fun op => op.allows i k) = inside (curLo ops i) (curHi ops i) k := by
    intro i k
    cases hin : inside (curLo ops i) (curHi ops i) k with
    | true => exact List.all_eq_true.2 fun op hop => htight op hop i k (inside_iff.1 hin)
    | false =>
      cases hall : ops.all fun op => op.allows i k with
      | false => rfl
      | true =>
        exfalso
        have aux : ∀ (l : List LimOp) (lo hi : Option Rat), inside lo hi k = true →
            (∀ op ∈ l, op.allows i k = true) →
            inside (l.foldl (fun cur op => match op with | .kmin v => limAt v i | _ => cur) lo)
              (l.foldl (fun cur op => match op with | .kmax v => limAt v i | _ => cur) hi) k = true := by
          intro l
          induction l with
          | nil => intro lo hi h _; exact h
          | cons op l ih =>
            intro lo hi h1 h2
            have hop := h2 op (by simp)
            simp only [List.foldl_cons]
            apply ih _ _ _ fun o ho => h2 o (List.mem_cons_of_mem _ ho)
            cases op with
            | kmin v => simp only [allows_kmin, allows_kmax, inside, Bool.and_eq_true] at *; exact ⟨hop.1, h1.2⟩
            | kmax v => simp only [allows_kmin, allows_kmax, inside, Bool.and_eq_true] at *; exact ⟨h1.1, hop.2⟩
            | readPower => exact h1
        have := aux ops none none (by rfl) (List.all_eq_true.1 hall)
        exact absurd (hin.symm.trans this) (by decide)
  have hk : ∀ m : Meas, m.k = m.kIn.filter (inside m.kmin m.kmax) := by
    intro m
    unfold Meas.k Meas.trimIdx
    rw [maskSel_map _ _ _ rfl, zip_self', List.filter_map, List.map_map]
    simp [Function.comp_def]
  have hb : binsOf d.meas (fun i k => ops.all fun op => op.allows i k) =
      d'.meas.flatMap (fun m => m.k.map fun k => (m.stat, k)) := by
    rw [hs.meas, binsOf_congr _ hcur, List.mapIdx_eq_zipIdx_map, List.flatMap_map]
    unfold binsOf
    apply flatMap_congr'
    rintro ⟨m, i⟩ _
    simp only [hk]
  refine ⟨hs.coords1.trans hb, hs.coords2.trans hb, ?_⟩
  rw [← hs.wf.coords1, hs.coords1, hb, List.length_flatMap]
  simp only [List.length_map]
  rfl

/-- A data set of two multipoles with three and two bins. -/
def demoData : Data where
  meas := [⟨0, [1, 2, 3], none, [10, 20, 30], [1, 1, 1], none, none⟩, ⟨2, [1, 2], none, [5, 6], [1, 1], none, none⟩]
  cov := construct 5 (fun i j => (10 * min i j + max i j + 1 : Nat)) [(0, 1), (0, 2), (0, 3), (2, 1), (2, 2)]
    [(0, 1), (0, 2), (0, 3), (2, 1), (2, 2)]
  kmin := none
  kmax := none
  cachedPower := none

theorem demoData_fresh : Fresh demoData := by
  refine ⟨by decide, by decide, by decide +kernel, by decide +kernel, construct_wf rfl rfl, ?_, ?_⟩ <;> decide +kernel

example : ∃ d', runLims demoData [.kmin [some 1, some 2], .readPower, .kmax [some 2]] = some d' ∧
    (∀ i k, Within (curLo [.kmin [some 1, some 2], .readPower, .kmax [some 2]] i)
      (curHi [.kmin [some 1, some 2], .readPower, .kmax [some 2]] i) k →
      ∀ op ∈ [LimOp.kmin [some 1, some 2], .readPower, .kmax [some 2]], op.allows i k = true) ∧
    d'.cov.coords1 = [(0, 1), (0, 2), (2, 2)] ∧ d'.meas.map Meas.k = [[1, 2], [2]] := by
  refine ⟨(runLims demoData [.kmin [some 1, some 2], .readPower, .kmax [some 2]]).getD demoData, by decide +kernel, ?_,
    by decide +kernel, by decide +kernel⟩
  intro i k h op hop
  rw [← inside_iff] at h
  simp only [curLo, curHi, List.foldl, inside, Bool.and_eq_true] at h
  simp only [List.mem_cons, List.not_mem_nil, or_false] at hop
  rcases hop with rfl | rfl | rfl
  · simp only [allows_kmin, allows_kmax, inside, Bool.and_eq_true]; exact ⟨h.1, trivial⟩
  · rfl
  · simp only [allows_kmin, allows_kmax, inside, Bool.and_eq_true]; exact ⟨trivial, h.2⟩

/-- Widening `kmin` again: the measurements get their bins back, the covariance does not. -/
theorem C40_widening_counterexample :
    (runLims demoData [.kmin [some 2], .kmin [none]]).map (fun d => (d.meas.map Meas.size, d.cov.N)) =
      some ([3, 2], 3) := by decide +kernel

/-- A limit that leaves a statistic without bins raises, but only after the measurements have been trimmed. -/
theorem C40_exception_counterexample :
    (demoData.setKmin [some 3]).2 = some .typeError ∧
    ((demoData.setKmin [some 3]).1.meas.map Meas.size, (demoData.setKmin [some 3]).1.cov.N,
      (demoData.setKmin [some 3]).1.kmin) = ([1, 0], 5, none) := by decide +kernel

/-- A new limit within `allclose` of the old one trims the measurements and the covariance, but the combined data vector
read earlier stays in the cache. -/
theorem C40_close_limits_counterexample :
    (runLims demoData [.kmin [some 2], .readPower, .kmin [some (2 + 1/1000000)]]).map
      (fun d => (d.combinedPower.1, d.meas.flatMap Meas.power)) = none ∧
    (runLims demoData [.kmax [some 2], .readPower, .kmax [some (2 - 1/1000000)]]).map
      (fun d => (d.combinedPower.1, d.meas.flatMap Meas.power, d.cov.N)) =
      some ([10, 20, 5, 6], [10, 5], 2) := by decide +kernel

/-- The cached combined vector is current or absent. -/
def Data.CacheOk (d : Data) : Prop := d.cachedPower = none ∨ d.cachedPower = some (d.meas.flatMap Meas.power)

/-- **C40 (combined vector).**  A successful limit change keeps the combined vector current provided the change is not a
"close but different" one: if the descriptor considers the new limits equal to the stored ones, they are the limits the
measurements already have. -/
theorem C40_combined_partial (d : Data) (val : List (Option Rat)) (hc : d.CacheOk)
    (hk : ∀ lims, broadcast d.meas.length val = .ok lims → limEq d.kmin lims = true → d.meas.map (·.kmin) = lims)
    (d' : Data) (h : d.setKmin val = (d', none)) :
    d'.CacheOk ∧ d'.combinedPower.1 = d'.meas.flatMap Meas.power := by
  have key : ∀ d' : Data, d'.CacheOk → d'.combinedPower.1 = d'.meas.flatMap Meas.power := by
    intro d' hc
    unfold Data.combinedPower
    rcases hc with h | h <;> rw [h]
  suffices d'.CacheOk from ⟨this, key d' this⟩
  unfold Data.setKmin at h
  split at h
  · cases h
  · rename_i lims hb
    simp only at h
    split at h
    · cases h
    · split at h
      · rename_i heq
        cases h
        have hm : List.zipWith (fun m l => { m with kmin := l }) d.meas lims = d.meas := by
          rw [← hk lims hb heq, List.zipWith_map_right, List.zipWith_self]
          simp
        unfold Data.CacheOk at *
        simp only [hm]
        exact hc
      · cases h; exact Or.inl rfl

example : demoData.CacheOk ∧ (demoData.setKmin [some 2]).2 = none ∧
    (∀ lims, broadcast demoData.meas.length [some 2] = .ok lims → limEq demoData.kmin lims = true →
      demoData.meas.map (·.kmin) = lims) :=
  ⟨Or.inl rfl, by decide +kernel, by intro lims _ h; simp [demoData, limEq] at h⟩

end Verif.Cov
