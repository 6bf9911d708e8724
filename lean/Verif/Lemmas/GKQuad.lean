/-
The adaptive quadrature is a sequence of bisections of the worst interval: invariants of the workspace and of the loop.
-/
import Verif.Lemmas.GKSort
import Verif.Spec.GKQuad
import Mathlib.Algebra.BigOperators.Group.Finset.Basic
import Mathlib.Data.Finset.Range
import Mathlib.Tactic.NormNum

namespace Verif.GK

variable (gk : ℝ → ℝ → ℝ × ℝ)

/-- What the workspace holds: the intervals `iv 0, ..., iv (size - 1)` with their results and errors -/
structure Inv (w : WS) (iv : ℕ → ℝ × ℝ) : Prop where
  pos : 1 ≤ w.size
  le : w.size ≤ w.limit
  ha : ∀ i, i < w.size → w.alist i = some (iv i).1
  hb : ∀ i, i < w.size → w.blist i = some (iv i).2
  hr : ∀ i, i < w.size → w.rlist i = some (gk (iv i).1 (iv i).2).1
  he : ∀ i, i < w.size → w.elist i = some (gk (iv i).1 (iv i).2).2
  ord : OrdInv w.limit w.size (fun i => (gk (iv i).1 (iv i).2).2) w.order

/-- The intervals of the workspace -/
def ms (w : WS) (iv : ℕ → ℝ × ℝ) : Multiset (ℝ × ℝ) := (Multiset.range w.size).map iv

theorem ms_two {n : ℕ} {iv iv' : ℕ → ℝ × ℝ} {x0 : ℕ} (hx : x0 < n) (hne : ∀ i, i < n → i ≠ x0 → iv' i = iv i) :
    (Multiset.range (n + 1)).map iv' = ((Multiset.range n).map iv).erase (iv x0) + {iv' x0, iv' n} := by
  have h0 : x0 ∈ Multiset.range n := by simpa using hx
  obtain ⟨t, ht⟩ := Multiset.exists_cons_of_mem h0
  have hnd : (Multiset.range n).Nodup := Multiset.nodup_range n
  rw [ht] at hnd
  have hnot : x0 ∉ t := (Multiset.nodup_cons.1 hnd).1
  rw [Multiset.range_succ, ht]
  simp only [Multiset.map_cons, Multiset.erase_cons_head]
  have hmap : t.map iv' = t.map iv := by
    refine Multiset.map_congr rfl ?_
    intro i hi
    have h1 : i ∈ Multiset.range n := by rw [ht]; exact Multiset.mem_cons_of_mem hi
    exact hne i (by simpa using h1) (fun h => hnot (h ▸ hi))
  rw [hmap, Multiset.insert_eq_cons, ← Multiset.singleton_add, ← Multiset.singleton_add (iv' x0), ← Multiset.singleton_add (iv' x0)]
  ac_rfl

theorem total_cons (v : ℝ → ℝ → ℝ) (I : ℝ × ℝ) (S : Multiset (ℝ × ℝ)) : total v (I ::ₘ S) = v I.1 I.2 + total v S := by
  simp [total]

theorem total_halve (v : ℝ → ℝ → ℝ) (I : ℝ × ℝ) (S : Multiset (ℝ × ℝ)) (h : I ∈ S) :
    total v (halve S I) = total v S + (v I.1 ((I.1 + I.2) / 2) + v ((I.1 + I.2) / 2) I.2 - v I.1 I.2) := by
  obtain ⟨t, rfl⟩ := Multiset.exists_cons_of_mem h
  simp only [halve, Multiset.erase_cons_head, total_cons]
  simp [total]
  ring

/-- `Update` replaces the interval with the largest error by its two halves -/
theorem update_spec (w : WS) (iv : ℕ → ℝ × ℝ) (h : Inv gk w iv) (hlt : w.size < w.limit) (x0 : ℕ) (hx0 : w.order 0 = some x0) (hx : x0 < w.size) (m : ℝ) :
    ∃ w' iv', w.update (iv x0).1 m (gk (iv x0).1 m).1 (gk (iv x0).1 m).2 m (iv x0).2 (gk m (iv x0).2).1 (gk m (iv x0).2).2 = some w' ∧ Inv gk w' iv' ∧
      w'.size = w.size + 1 ∧ w'.limit = w.limit ∧ ms w' iv' = (ms w iv).erase (iv x0) + {((iv x0).1, m), (m, (iv x0).2)} := by
  obtain ⟨a, ha⟩ : ∃ a, a = (iv x0).1 := ⟨_, rfl⟩
  obtain ⟨b, hb⟩ : ∃ b, b = (iv x0).2 := ⟨_, rfl⟩
  have hxl : x0 < w.limit := by omega
  have key : ∀ (big small : ℝ × ℝ) (al bl rl el : Mem ℝ), (gk small.1 small.2).2 ≤ (gk big.1 big.2).2 →
      (∀ i, i < w.size + 1 → al i = some ((Function.update (Function.update iv x0 big) w.size small) i).1) →
      (∀ i, i < w.size + 1 → bl i = some ((Function.update (Function.update iv x0 big) w.size small) i).2) →
      (∀ i, i < w.size + 1 → rl i = some (gk ((Function.update (Function.update iv x0 big) w.size small) i).1 ((Function.update (Function.update iv x0 big) w.size small) i).2).1) →
      (∀ i, i < w.size + 1 → el i = some (gk ((Function.update (Function.update iv x0 big) w.size small) i).1 ((Function.update (Function.update iv x0 big) w.size small) i).2).2) →
      ∃ w', WS.sort { w with alist := al, blist := bl, rlist := rl, elist := el, size := w.size + 1 } = some w' ∧
        Inv gk w' (Function.update (Function.update iv x0 big) w.size small) ∧ w'.size = w.size + 1 ∧ w'.limit = w.limit ∧
        ms w' (Function.update (Function.update iv x0 big) w.size small) = (ms w iv).erase (iv x0) + {big, small} := by
    intro big small al bl rl el hle hal hbl hrl hel
    obtain ⟨o, hs, ho⟩ := sort_spec { w with alist := al, blist := bl, rlist := rl, elist := el, size := w.size + 1 } w.size
      (fun i => (gk (iv i).1 (iv i).2).2) (fun i => (gk ((Function.update (Function.update iv x0 big) w.size small) i).1 ((Function.update (Function.update iv x0 big) w.size small) i).2).2)
      x0 rfl h.pos (by simpa using hlt) h.ord hx0 (fun i hi => hel i hi)
      (by
        intro y hy hyx
        simp only [Function.update_of_ne (show y ≠ w.size by omega), Function.update_of_ne hyx])
      (by
        simp only [Function.update_self, Function.update_of_ne (show x0 ≠ w.size by omega)]
        exact hle)
    refine ⟨_, hs, ⟨by simp, by simpa using hlt, hal, hbl, hrl, hel, ho⟩, rfl, rfl, ?_⟩
    have := ms_two (iv := iv) (iv' := Function.update (Function.update iv x0 big) w.size small) hx (by
      intro i hi hix
      rw [Function.update_of_ne (by omega), Function.update_of_ne hix])
    simp only [Function.update_self, Function.update_of_ne (show x0 ≠ w.size by omega)] at this
    exact this
  have upd : ∀ (m : Mem ℝ) (u v : ℝ) (g : ℕ → ℝ), (∀ i, i < w.size → m i = some (g i)) → ∀ i, i < w.size + 1 →
      Function.update (Function.update m x0 (some u)) w.size (some v) i = some (Function.update (Function.update g x0 u) w.size v i) := by
    intro m u v g hm i hi
    by_cases h1 : i = w.size
    · subst h1
      simp
    · rw [Function.update_of_ne h1, Function.update_of_ne h1]
      by_cases h2 : i = x0
      · subst h2
        simp
      · rw [Function.update_of_ne h2, Function.update_of_ne h2, hm i (by omega)]
  have upd1 : ∀ (m : Mem ℝ) (v : ℝ) (g : ℕ → ℝ), (∀ i, i < w.size → m i = some (g i)) → ∀ i, i < w.size + 1 →
      Function.update m w.size (some v) i = some (Function.update g w.size v i) := by
    intro m v g hm i hi
    by_cases h1 : i = w.size
    · subst h1
      simp
    · rw [Function.update_of_ne h1, Function.update_of_ne h1, hm i (by omega)]
  have val : ∀ (big small : ℝ × ℝ) (p : ℝ × ℝ → ℝ) (i : ℕ),
      p ((Function.update (Function.update iv x0 big) w.size small) i) = Function.update (Function.update (fun i => p (iv i)) x0 (p big)) w.size (p small) i := by
    intro big small p i
    by_cases h1 : i = w.size
    · subst h1
      simp
    · rw [Function.update_of_ne h1, Function.update_of_ne h1]
      by_cases h2 : i = x0
      · subst h2
        simp
      · rw [Function.update_of_ne h2, Function.update_of_ne h2]
  rw [← ha, ← hb]
  by_cases hc : (gk m b).2 > (gk a m).2
  · obtain ⟨w', hs, hi, hsz, hlm, hms⟩ := key (m, b) (a, m) (Function.update (Function.update w.alist x0 (some m)) w.size (some a)) (Function.update w.blist w.size (some m))
      (Function.update (Function.update w.rlist x0 (some (gk m b).1)) w.size (some (gk a m).1))
      (Function.update (Function.update w.elist x0 (some (gk m b).2)) w.size (some (gk a m).2)) hc.le
      (by
        intro i hi
        rw [val (m, b) (a, m) Prod.fst]
        exact upd _ _ _ _ h.ha i hi)
      (by
        intro i hi
        rw [val (m, b) (a, m) Prod.snd, upd1 _ m _ h.hb i hi]
        have : Function.update (fun i => (iv i).2) x0 (m, b).2 = fun i => (iv i).2 := by
          rw [show (m, b).2 = (iv x0).2 from hb]
          exact Function.update_eq_self x0 (fun i => (iv i).2)
        rw [this])
      (by
        intro i hi
        rw [val (m, b) (a, m) (fun p => (gk p.1 p.2).1)]
        exact upd _ _ _ _ h.hr i hi)
      (by
        intro i hi
        rw [val (m, b) (a, m) (fun p => (gk p.1 p.2).2)]
        exact upd _ _ _ _ h.he i hi)
    refine ⟨w', _, ?_, hi, hsz, hlm, ?_⟩
    · unfold WS.update
      simp only [hx0, Option.bind_some]
      rw [if_pos hc]
      simp only [wr_eq hxl, wr_eq hlt, Option.bind_some]
      exact hs
    · rw [hms]
      congr 1
      exact Multiset.pair_comm _ _
  · obtain ⟨w', hs, hi, hsz, hlm, hms⟩ := key (a, m) (m, b) (Function.update w.alist w.size (some m)) (Function.update (Function.update w.blist x0 (some m)) w.size (some b))
      (Function.update (Function.update w.rlist x0 (some (gk a m).1)) w.size (some (gk m b).1))
      (Function.update (Function.update w.elist x0 (some (gk a m).2)) w.size (some (gk m b).2)) (not_lt.1 hc)
      (by
        intro i hi
        rw [val (a, m) (m, b) Prod.fst, upd1 _ m _ h.ha i hi]
        have : Function.update (fun i => (iv i).1) x0 (a, m).1 = fun i => (iv i).1 := by
          rw [show (a, m).1 = (iv x0).1 from ha]
          exact Function.update_eq_self x0 (fun i => (iv i).1)
        rw [this])
      (by
        intro i hi
        rw [val (a, m) (m, b) Prod.snd]
        exact upd _ _ _ _ h.hb i hi)
      (by
        intro i hi
        rw [val (a, m) (m, b) (fun p => (gk p.1 p.2).1)]
        exact upd _ _ _ _ h.hr i hi)
      (by
        intro i hi
        rw [val (a, m) (m, b) (fun p => (gk p.1 p.2).2)]
        exact upd _ _ _ _ h.he i hi)
    refine ⟨w', _, ?_, hi, hsz, hlm, hms⟩
    unfold WS.update
    simp only [hx0, Option.bind_some]
    rw [if_neg hc]
    simp only [wr_eq hxl, wr_eq hlt, Option.bind_some]
    exact hs

theorem dblEps_eq : 100 * dblEps = 100 / 2 ^ 52 := by
  unfold dblEps
  rw [inv_pow]
  ring

theorem dblMin_eq : 1000 * dblMin = 1000 / 2 ^ 1022 := by
  unfold dblMin
  rw [inv_pow, div_eq_mul_inv]

/-- The state of the loop -/
structure LInv (s : Loop) (iv : ℕ → ℝ × ℝ) : Prop where
  inv : Inv gk s.ws iv
  it : s.iteration = s.ws.size
  area : s.area = total (fun a b => (gk a b).1) (ms s.ws iv)
  errsum : s.errsum = total (fun a b => (gk a b).2) (ms s.ws iv)

open Classical in
theorem body_spec (epsrel epsabs : ℝ) (s : Loop) (iv : ℕ → ℝ × ℝ) (h : LInv gk s iv) (hc : s.code = 0) (hlt : s.ws.size < s.ws.limit) :
    ∃ s' iv' I, body gk epsrel epsabs s = some s' ∧ LInv gk s' iv' ∧ Worst (fun a b => (gk a b).2) (ms s.ws iv) I ∧ ms s'.ws iv' = halve (ms s.ws iv) I ∧
      s'.ws.size = s.ws.size + 1 ∧ s'.ws.limit = s.ws.limit ∧ s'.neval = s.neval + 30 ∧
      s'.tolerance = max epsabs (epsrel * |total (fun a b => (gk a b).1) (ms s'.ws iv')|) ∧
      s'.code = if s'.errsum > s'.tolerance ∧ Tiny I then 3 else 0 := by
  obtain ⟨x0, hx0, hx, hmax⟩ := h.inv.ord.first h.inv.pos h.inv.le
  obtain ⟨w', iv', hu, hi', hsz, hlm, hms⟩ := update_spec gk s.ws iv h.inv hlt x0 hx0 hx (0.5 * ((iv x0).1 + (iv x0).2))
  have hmid : (0.5 : ℝ) * ((iv x0).1 + (iv x0).2) = ((iv x0).1 + (iv x0).2) / 2 := by ring
  have hmem : iv x0 ∈ ms s.ws iv := Multiset.mem_map.2 ⟨x0, by simpa using hx, rfl⟩
  have hhalve : ms w' iv' = halve (ms s.ws iv) (iv x0) := by rw [hms, hmid]; rfl
  have hI : s.ws.maxInterval = some ⟨(iv x0).1, (iv x0).2, (gk (iv x0).1 (iv x0).2).1, (gk (iv x0).1 (iv x0).2).2⟩ := by
    simp [WS.maxInterval, hx0, h.inv.ha x0 hx, h.inv.hb x0 hx, h.inv.hr x0 hx, h.inv.he x0 hx]
  have hit : s.iteration ≠ s.ws.limit := by rw [h.it]; omega
  have hb : ∃ s', body gk epsrel epsabs s = some s' ∧ s'.ws = w' ∧
      s'.area = s.area + ((gk (iv x0).1 (((iv x0).1 + (iv x0).2) / 2)).1 + (gk (((iv x0).1 + (iv x0).2) / 2) (iv x0).2).1 - (gk (iv x0).1 (iv x0).2).1) ∧
      s'.errsum = s.errsum + ((gk (iv x0).1 (((iv x0).1 + (iv x0).2) / 2)).2 + (gk (((iv x0).1 + (iv x0).2) / 2) (iv x0).2).2 - (gk (iv x0).1 (iv x0).2).2) ∧
      s'.iteration = s.iteration + 1 ∧ s'.neval = s.neval + 30 ∧ s'.tolerance = max epsabs (epsrel * |s'.area|) ∧
      s'.code = if s'.errsum > s'.tolerance then (if Tiny (iv x0) then 3 else 0) else 0 := by
    rw [hmid] at hu
    unfold body
    rw [hI]
    simp only [Option.bind_some, hmid]
    rw [hu]
    refine ⟨_, rfl, rfl, rfl, rfl, rfl, rfl, rfl, ?_⟩
    simp only [hc, if_neg hit]
    unfold Tiny
    rw [← dblEps_eq, ← dblMin_eq]
    split_ifs <;> first | rfl | contradiction
  obtain ⟨s', hbody, hws, harea, herr, hiter, hnev, htol, hcode⟩ := hb
  have hA : s'.area = total (fun a b => (gk a b).1) (ms s'.ws iv') := by
    rw [hws, hhalve, total_halve _ _ _ hmem, harea, h.area]
  have hE : s'.errsum = total (fun a b => (gk a b).2) (ms s'.ws iv') := by
    rw [hws, hhalve, total_halve _ _ _ hmem, herr, h.errsum]
  refine ⟨s', iv', iv x0, hbody, ⟨hws ▸ hi', ?_, hA, hE⟩, ⟨hmem, ?_⟩, ?_, ?_, ?_, hnev, ?_, ?_⟩
  · rw [hiter, h.it, hws, hsz]
  · intro J hJ
    obtain ⟨y, hy, rfl⟩ := Multiset.mem_map.1 hJ
    exact hmax y (by simpa using hy)
  · rw [hws]; exact hhalve
  · rw [hws]; exact hsz
  · rw [hws]; exact hlm
  · rw [htol, hA]
  · rw [hcode]
    by_cases h1 : s'.errsum > s'.tolerance <;> by_cases h2 : Tiny (iv x0) <;> simp [h1, h2]

theorem Run.one {val err : ℝ → ℝ → ℝ} {epsrel epsabs : ℝ} {S0 S1 : Multiset (ℝ × ℝ)} {J : ℝ × ℝ} (h1 : Worst err S0 J) (h2 : S1 = halve S0 J) :
    Run val err epsrel epsabs 1 (fun i => if i = 0 then S0 else S1) (fun _ => J) := by
  refine ⟨le_refl _, ?_, ?_⟩
  · intro i hi
    have : i = 0 := by omega
    subst this
    exact ⟨by simpa using h1, by simpa using h2⟩
  · intro i hi
    omega

theorem Run.cons {val err : ℝ → ℝ → ℝ} {epsrel epsabs : ℝ} {n : ℕ} {S : ℕ → Multiset (ℝ × ℝ)} {I : ℕ → ℝ × ℝ} (h : Run val err epsrel epsabs n S I) {S0 : Multiset (ℝ × ℝ)} {J : ℝ × ℝ}
    (h1 : Worst err S0 J) (h2 : S 0 = halve S0 J)
    (h3 : ¬ Converged val err epsrel epsabs (S 0)) (h4 : ¬ Tiny J) :
    Run val err epsrel epsabs (n + 1) (fun i => if i = 0 then S0 else S (i - 1)) (fun i => if i = 0 then J else I (i - 1)) := by
  refine ⟨by omega, ?_, ?_⟩
  · intro i hi
    rcases i with _ | i
    · exact ⟨by simpa using h1, by simpa using h2⟩
    · simpa using h.step i (by omega)
  · intro i hi
    rcases i with _ | i
    · exact ⟨by simpa using h3, by simpa using h4⟩
    · simpa using h.go i (by omega)

theorem doWhile_spec (epsrel epsabs : ℝ) : ∀ (fuel : ℕ) (s : Loop) (iv : ℕ → ℝ × ℝ), LInv gk s iv → s.code = 0 → s.ws.size < s.ws.limit → s.ws.limit ≤ fuel + s.ws.size →
    ∃ s' iv' n S I, doWhile gk epsrel epsabs fuel s = some s' ∧ LInv gk s' iv' ∧ Run (fun a b => (gk a b).1) (fun a b => (gk a b).2) epsrel epsabs n S I ∧ S 0 = ms s.ws iv ∧ S n = ms s'.ws iv' ∧
      s'.ws.size = s.ws.size + n ∧ s'.ws.limit = s.ws.limit ∧ s'.neval = s.neval + 30 * n ∧
      s'.tolerance = max epsabs (epsrel * |total (fun a b => (gk a b).1) (S n)|) ∧
      ((s'.errsum > s'.tolerance ∧ Tiny (I (n - 1)) ∧ s'.code = 3) ∨
        (¬ (s'.errsum > s'.tolerance ∧ Tiny (I (n - 1))) ∧ s'.code = 0 ∧ (s'.errsum > s'.tolerance → s'.ws.size = s'.ws.limit))) := by
  intro fuel
  induction fuel with
  | zero =>
    intro s iv _ _ h1 h2
    omega
  | succ fuel ih =>
    intro s iv h hc hlt hf
    obtain ⟨s1, iv1, J, hb, hL, hW, hH, hsz, hlm, hnev, htol, hcode⟩ := body_spec gk epsrel epsabs s iv h hc hlt
    have hstop : ¬ (s1.iteration < s1.ws.limit ∧ s1.code = 0 ∧ s1.errsum > s1.tolerance) →
        ∃ s' iv' n S I, doWhile gk epsrel epsabs (fuel + 1) s = some s' ∧ LInv gk s' iv' ∧ Run (fun a b => (gk a b).1) (fun a b => (gk a b).2) epsrel epsabs n S I ∧ S 0 = ms s.ws iv ∧ S n = ms s'.ws iv' ∧
          s'.ws.size = s.ws.size + n ∧ s'.ws.limit = s.ws.limit ∧ s'.neval = s.neval + 30 * n ∧
          s'.tolerance = max epsabs (epsrel * |total (fun a b => (gk a b).1) (S n)|) ∧
          ((s'.errsum > s'.tolerance ∧ Tiny (I (n - 1)) ∧ s'.code = 3) ∨
            (¬ (s'.errsum > s'.tolerance ∧ Tiny (I (n - 1))) ∧ s'.code = 0 ∧ (s'.errsum > s'.tolerance → s'.ws.size = s'.ws.limit))) := by
      intro hst
      refine ⟨s1, iv1, 1, _, _, ?_, hL, Run.one hW hH, by simp, by simp, hsz, hlm, by simpa using hnev, by simpa using htol, ?_⟩
      · simp only [doWhile, hb, Option.bind_some, if_neg hst]
      · by_cases h1 : s1.errsum > s1.tolerance ∧ Tiny J
        · left
          exact ⟨h1.1, h1.2, by rw [hcode, if_pos h1]⟩
        · right
          have hc0 : s1.code = 0 := by rw [hcode, if_neg h1]
          refine ⟨h1, hc0, ?_⟩
          intro he
          have h2 : ¬ s1.iteration < s1.ws.limit := fun h3 => hst ⟨h3, hc0, he⟩
          rw [hL.it] at h2
          omega
    by_cases hst : s1.iteration < s1.ws.limit ∧ s1.code = 0 ∧ s1.errsum > s1.tolerance
    swap
    · exact hstop hst
    have hnt : ¬ Tiny J := by
      intro h1
      rw [if_pos ⟨hst.2.2, h1⟩] at hcode
      have := hst.2.1
      omega
    have hnc : ¬ Converged (fun a b => (gk a b).1) (fun a b => (gk a b).2) epsrel epsabs (ms s1.ws iv1) := by
      unfold Converged
      rw [← htol, ← hL.errsum]
      exact not_le.2 hst.2.2
    obtain ⟨s', iv', n, S, I, hd, hL', hR, hS0, hSn, hsz', hlm', hnev', htol', hend⟩ := ih s1 iv1 hL hst.2.1 (by rw [← hL.it]; exact hst.1) (by omega)
    have hn := hR.pos
    refine ⟨s', iv', n + 1, _, _, ?_, hL', Run.cons hR hW (by rw [hS0]; exact hH) (by rw [hS0]; exact hnc) hnt, by simp, by simpa using hSn, by omega, by omega, by omega,
      by simpa using htol', ?_⟩
    · simp only [doWhile, hb, Option.bind_some, if_pos hst]
      exact hd
    · have : n ≠ 0 := by omega
      simpa [this] using hend

theorem sumMem_spec (m : Mem ℝ) (g : ℕ → ℝ) : ∀ n, (∀ i, i < n → m i = some (g i)) → sumMem m n = some ((Multiset.range n).map g).sum := by
  intro n
  induction n with
  | zero =>
    intro _
    simp [sumMem]
  | succ n ih =>
    intro h
    rw [sumMem, ih (fun i hi => h i (by omega)), Option.bind_some, h n (by omega), Option.bind_some, Multiset.range_succ, Multiset.map_cons, Multiset.sum_cons, add_comm]

theorem ms_total (w : WS) (iv : ℕ → ℝ × ℝ) (v : ℝ → ℝ → ℝ) : total v (ms w iv) = ((Multiset.range w.size).map fun i => v (iv i).1 (iv i).2).sum := by
  simp [total, ms, Multiset.map_map]

theorem integrate_spec (w : WS) (hl : 2 ≤ w.limit) (a b epsrel epsabs : ℝ) (hok : ¬ (epsabs ≤ 0 ∧ (epsrel < 50 * dblEps ∨ epsrel < 0.5e-28))) :
    ∃ out w' n S I, w.integrate gk a b epsrel epsabs = some (out, w') ∧ w'.limit = w.limit ∧ Run (fun a b => (gk a b).1) (fun a b => (gk a b).2) epsrel epsabs n S I ∧ S 0 = {(min a b, max a b)} ∧ n < w.limit ∧
      out.value = (if a > b then -1 else 1) * total (fun a b => (gk a b).1) (S n) ∧ out.abserr = some (total (fun a b => (gk a b).2) (S n)) ∧ out.neval = some (15 + 30 * n) ∧
      ((Converged (fun a b => (gk a b).1) (fun a b => (gk a b).2) epsrel epsabs (S n) ∧ out.warned = none) ∨
       (¬ Converged (fun a b => (gk a b).1) (fun a b => (gk a b).2) epsrel epsabs (S n) ∧ Tiny (I (n - 1)) ∧ out.warned = some 3) ∨
       (¬ Converged (fun a b => (gk a b).1) (fun a b => (gk a b).2) epsrel epsabs (S n) ∧ ¬ Tiny (I (n - 1)) ∧ n + 1 = w.limit ∧ out.warned = none)) := by
  obtain ⟨lo, hlo⟩ : ∃ lo, lo = if a > b then b else a := ⟨_, rfl⟩
  obtain ⟨hi, hhi⟩ : ∃ hi, hi = if a > b then a else b := ⟨_, rfl⟩
  have hlo' : min a b = lo := by
    rw [hlo]
    by_cases h : a > b
    · rw [if_pos h, min_eq_right h.le]
    · rw [if_neg h, min_eq_left (not_lt.1 h)]
  have hhi' : max a b = hi := by
    rw [hhi]
    by_cases h : a > b
    · rw [if_pos h, max_eq_left h.le]
    · rw [if_neg h, max_eq_right (not_lt.1 h)]
  have hp : 0 < w.limit := by omega
  obtain ⟨s0, hs0⟩ : ∃ s0 : Loop, s0 = ⟨⟨w.limit, 1, Function.update w.alist 0 (some lo), Function.update w.blist 0 (some hi), Function.update w.rlist 0 (some (gk lo hi).1),
    Function.update w.elist 0 (some (gk lo hi).2), Function.update w.order 0 (some 0)⟩, (gk lo hi).1, (gk lo hi).2, 1, 15, 0, 0⟩ := ⟨_, rfl⟩
  have hms : ms s0.ws (fun _ => (lo, hi)) = {(lo, hi)} := by
    rw [hs0]
    rfl
  have hL : LInv gk s0 (fun _ => (lo, hi)) := by
    refine ⟨?_, by rw [hs0], ?_, ?_⟩
    · rw [hs0]
      have z : ∀ (m : Mem ℝ) (v : ℝ) (i : ℕ), i < 1 → Function.update m 0 (some v) i = some v := by
        intro m v i hi'
        have : i = 0 := by omega
        subst this
        simp
      refine ⟨le_refl _, by simp only []; omega, fun i h => z _ _ i h, fun i h => z _ _ i h, fun i h => z _ _ i h, fun i h => z _ _ i h, ?_⟩
      refine ⟨[0], Holds.cons (by simp) (Holds.nil _ _), by simp, by simp, by simp [tp], Good.take ⟨by simp, ?_⟩ _⟩
      intro y hy hy2
      simp at hy hy2
      omega
    · rw [hms, hs0]
      simp [total]
    · rw [hms, hs0]
      simp [total]
  obtain ⟨s', iv', n, S, I, hd, hL', hR, hS0, hSn, hsz, hlm, hnev, htol, hend⟩ := doWhile_spec gk epsrel epsabs w.limit s0 _ hL (by rw [hs0]) (by rw [hs0]; simp only []; omega) (by rw [hs0]; simp)
  have hlm2 : s'.ws.limit = w.limit := by rw [hlm, hs0]
  have hsz2 : s'.ws.size = 1 + n := by rw [hsz, hs0]
  have hle := hL'.inv.le
  have hr : sumMem s'.ws.rlist s'.ws.size = some (total (fun a b => (gk a b).1) (S n)) := by
    rw [hSn, ms_total]
    exact sumMem_spec _ _ _ hL'.inv.hr
  have he : sumMem s'.ws.elist s'.ws.size = some (total (fun a b => (gk a b).2) (S n)) := by
    rw [hSn, ms_total]
    exact sumMem_spec _ _ _ hL'.inv.he
  have hes : s'.errsum = total (fun a b => (gk a b).2) (S n) := by rw [hL'.errsum, hSn]
  refine ⟨⟨(if a > b then -1 else 1) * total (fun a b => (gk a b).1) (S n), some (total (fun a b => (gk a b).2) (S n)), some s'.neval,
    if total (fun a b => (gk a b).2) (S n) > s'.tolerance then (if s'.code = 0 then none else some s'.code) else none⟩, s'.ws, n, S, I, ?_, hlm2, hR, by rw [hS0, hms, hlo', hhi'], by omega, ?_⟩
  · unfold WS.integrate
    rw [if_neg hok]
    simp only [wr_eq hp, Option.bind_some]
    rw [← hlo, ← hhi, ← hs0, hd]
    simp only [Option.bind_some, hr, he]
  · refine ⟨rfl, rfl, ?_, ?_⟩
    · simp only [hnev, hs0]
    · unfold Converged
      rw [← htol]
      simp only []
      rw [← hes]
      rcases hend with ⟨h1, h2, h3⟩ | ⟨h1, h2, h3⟩
      · right; left
        exact ⟨not_le.2 h1, h2, by simp [h1, h3]⟩
      · by_cases h4 : s'.errsum > s'.tolerance
        · right; right
          have h5 := h3 h4
          exact ⟨not_le.2 h4, fun h6 => h1 ⟨h4, h6⟩, by omega, by simp [h2]⟩
        · left
          exact ⟨not_lt.1 h4, by simp [h4]⟩

end Verif.GK
