/-
C118: files of measurements and grids read back.
-/
import Verif.Props.DataFile

namespace Verif.DataFile

noncomputable section

/-! ### Measurements -/

/-- A measurement as `from_array` or a user makes it: arrays of `N` bins, `mu` for P(k,mu) only, a multipole number for multipoles only, errors if `errors`. -/
structure Regular (kind : Kind) (errors : Bool) (N : ℕ) (m : Meas) : Prop where
  kindEq : m.kind = kind
  k : m.k.length = N
  power : m.power.length = N
  mu : match kind with
    | .pkmu => ∃ l, m.mu = .arr l ∧ l.length = N
    | .pole => m.mu = .none
  error : if errors then ∃ l, m.error = .arr l ∧ l.length = N else m.error = .none
  columns : m.columns = none ∨ m.columns = some m.columnsNow

/-- The columns of such a measurement. -/
def regularColumns (kind : Kind) (errors : Bool) : List String :=
  ["k"] ++ (match kind with | .pkmu => ["mu"] | .pole => []) ++ ["power"] ++ if errors then ["error"] else []

theorem Regular.getColumns {kind : Kind} {errors : Bool} {N : ℕ} {m : Meas} (h : Regular kind errors N m) : m.getColumns.1 = regularColumns kind errors := by
  have h1 : m.getColumns.1 = m.columnsNow := by
    unfold Meas.getColumns
    rcases h.columns with hc | hc <;> rw [hc]
  rw [h1]
  have hm := h.mu
  have he := h.error
  unfold Meas.columnsNow regularColumns
  cases kind <;> cases errors <;> simp only at hm <;> simp only [Bool.false_eq_true, if_false, if_true] at he
  · obtain ⟨l, hl, _⟩ := hm
    simp [Meas.input, List.filter_cons, Col.present, hl, he]
  · obtain ⟨l, hl, _⟩ := hm
    obtain ⟨l', hl', _⟩ := he
    simp [Meas.input, List.filter_cons, Col.present, hl, hl']
  · simp [Meas.input, List.filter_cons, Col.present, hm, he]
  · obtain ⟨l', hl', _⟩ := he
    simp [Meas.input, List.filter_cons, Col.present, hm, hl']

theorem Regular.input {kind : Kind} {errors : Bool} {N : ℕ} {m : Meas} (h : Regular kind errors N m) (c : String) (hc : c ∈ regularColumns kind errors) :
    ∃ l, m.input c = .arr l ∧ l.length = N := by
  have hm := h.mu
  have he := h.error
  cases kind <;> cases errors <;> simp only [regularColumns, List.mem_append, List.mem_cons, List.not_mem_nil, or_false, Bool.false_eq_true, if_false, if_true] at hc <;> simp only at hm <;>
    simp only [Bool.false_eq_true, if_false, if_true] at he
  · rcases hc with (rfl | rfl) | rfl
    · exact ⟨m.k, by simp [Meas.input], h.k⟩
    · obtain ⟨l, hl, hn⟩ := hm; exact ⟨l, by simp [Meas.input, hl], hn⟩
    · exact ⟨m.power, by simp [Meas.input], h.power⟩
  · rcases hc with ((rfl | rfl) | rfl) | rfl
    · exact ⟨m.k, by simp [Meas.input], h.k⟩
    · obtain ⟨l, hl, hn⟩ := hm; exact ⟨l, by simp [Meas.input, hl], hn⟩
    · exact ⟨m.power, by simp [Meas.input], h.power⟩
    · obtain ⟨l, hl, hn⟩ := he; exact ⟨l, by simp [Meas.input, hl], hn⟩
  · rcases hc with rfl | rfl
    · exact ⟨m.k, by simp [Meas.input], h.k⟩
    · exact ⟨m.power, by simp [Meas.input], h.power⟩
  · rcases hc with (rfl | rfl) | rfl
    · exact ⟨m.k, by simp [Meas.input], h.k⟩
    · exact ⟨m.power, by simp [Meas.input], h.power⟩
    · obtain ⟨l, hl, hn⟩ := he; exact ⟨l, by simp [Meas.input, hl], hn⟩

theorem stack_regular (N : ℕ) (cols : List Col) (hne : cols ≠ []) (h : ∀ c ∈ cols, ∃ l, c = .arr l ∧ l.length = N) : ∃ d, stack N cols = .ok d := by
  obtain ⟨c0, cs, rfl⟩ := List.exists_cons_of_ne_nil hne
  have hrow : ∀ c ∈ c0 :: cs, c.row.length = N ∧ c.row.any Option.isNone = false := by
    intro c hc
    obtain ⟨l, rfl, hl⟩ := h c hc
    refine ⟨by simp [Col.row, hl], ?_⟩
    rw [Bool.eq_false_iff]
    intro hcon
    simp [Col.row] at hcon
  have hL : (((c0 :: cs).map Col.row).headD []).length = N := by
    have := (hrow c0 (by simp)).1
    simpa using this
  unfold stack
  dsimp only
  rw [if_neg, if_neg (by rw [hL]; simp), if_neg]
  · exact ⟨_, rfl⟩
  · intro hcon
    obtain ⟨r, hr, hn⟩ := List.any_eq_true.1 hcon
    obtain ⟨c, hc, rfl⟩ := List.mem_map.1 hr
    rw [(hrow c hc).2] at hn
    cases hn
  · simp only [Bool.not_eq_true, Bool.not_eq_false', List.all_eq_true, beq_iff_eq]
    intro r hr
    obtain ⟨c, hc, rfl⟩ := List.mem_map.1 hr
    rw [hL, (hrow c hc).1]

theorem regularColumns_facts (kind : Kind) (errors : Bool) :
    (regularColumns kind errors).Nodup ∧ "k" ∈ regularColumns kind errors ∧ "power" ∈ regularColumns kind errors ∧ (kind = .pkmu → "mu" ∈ regularColumns kind errors) ∧
    (errors = true → "error" ∈ regularColumns kind errors) ∧ (errors = false → "error" ∉ regularColumns kind errors) := by
  cases kind <;> cases errors <;> decide

/-- C118 (round trip): measurements of one kind and one number of bins (with at least one bin), all or none of them with errors, are written without error, and the file, read with names of the right kind
and multipole number, gives the same measurements in the same order, with every number rounded to six digits. -/
theorem C118_roundtrip (rnd : ℝ → ℤ) (parse : List Char → Option ℝ) (kind : Kind) (errors : Bool) (N : ℕ) (hN : 0 < N) (ms : List Meas) (hne : ms ≠ []) (hms : ∀ m ∈ ms, Regular kind errors N m)
    (names : List (List Char)) (hlen : names.length = ms.length)
    (hnames : ∀ (i : ℕ) (name : List Char) (m : Meas), names[i]? = some name → ms[i]? = some m → kindOf name = some kind ∧ ∃ v, parse ((parts name).getLastD []) = some v ∧ m.ell = if kind = .pole then some v else none) :
    ∃ f, write rnd ms = .ok f ∧ read parse names f = .ok (ms.map (Meas.rounded rnd)) := by
  obtain ⟨m0, rest, rfl⟩ := List.exists_cons_of_ne_nil hne
  have h0 := hms m0 (by simp)
  obtain ⟨c1, c2, c3, c4, c5, c6⟩ := regularColumns_facts kind errors
  -- written
  have hstack : ∀ c ∈ m0.getColumns.1, ∃ d, stack m0.power.length ((m0 :: rest).map fun m => m.input c) = .ok d := by
    intro c hc
    rw [h0.getColumns] at hc
    refine stack_regular _ _ (by simp) fun col hcol => ?_
    obtain ⟨m, hm, rfl⟩ := List.mem_map.1 hcol
    rw [h0.power]
    exact (hms m hm).input c hc
  choose! g hg using hstack
  have hw : ∃ f, write rnd (m0 :: rest) = .ok f := by
    unfold write
    dsimp only
    rw [mapM_ok _ _ g hg]
    exact ⟨_, rfl⟩
  obtain ⟨f, hf⟩ := hw
  obtain ⟨w1, w2, w3, w4⟩ := C118_written hf
  have hcols : f.columns = regularColumns kind errors := by rw [(write_inv hf).2.1, h0.getColumns]
  have hs1 : f.shape.1 = N := by rw [w1]; exact h0.power
  have hs2 : f.shape.2 = (m0 :: rest).length := by rw [w1]
  have hlt : ∀ i : ℕ, i < names.length → ∃ m, (m0 :: rest)[i]? = some m := fun i hi => ⟨_, List.getElem?_eq_getElem (by omega)⟩
  -- read
  obtain ⟨ms', r1, r2, r3⟩ := C118_reads parse names f (by rw [hs1, hs2]; exact Nat.mul_pos hN (by simp)) w2 w3 (by rw [hcols]; exact c1) (by rw [hcols]; exact c2) (by rw [hcols]; exact c3)
    (by rw [hs2, hlen]) (by
      intro name hname
      obtain ⟨i, hi⟩ := List.mem_iff_getElem?.1 hname
      obtain ⟨m, hm⟩ := hlt i (List.getElem?_eq_some_iff.1 hi).1
      obtain ⟨h1, v, h2, _⟩ := hnames i name m hi hm
      exact ⟨kind, v, h1, h2, fun h => by rw [hcols]; exact c4 h⟩)
  refine ⟨f, hf, ?_⟩
  rw [r1]
  congr 1
  apply List.ext_getElem?
  intro i
  by_cases hi : i < names.length
  · obtain ⟨m, hm⟩ := hlt i hi
    have hname : names[i]? = some names[i] := List.getElem?_eq_getElem hi
    obtain ⟨m', hm', hk, hpole, hpk, herr, hcol, hc⟩ := r3 i _ hname
    obtain ⟨hkn, v, hv, hell⟩ := hnames i _ m hname hm
    have hreg := hms m (List.mem_of_getElem? hm)
    have hkind : m'.kind = kind := by rw [hkn] at hk; exact (Option.some.inj hk).symm
    -- each column
    have hcolumn : ∀ c ∈ ["k", "mu", "power", "error"], c ∈ regularColumns kind errors → (c = "mu" → kind = .pkmu) → m'.input c = (m.input c).rounded rnd := by
      intro c hc4 hcr hcm
      obtain ⟨l, hl1, hl2, hl3⟩ := hc c hc4 (by rw [hcols]; exact hcr) (by rw [hkind]; exact hcm)
      obtain ⟨l0, h01, h02⟩ := hreg.input c hcr
      rw [hl1, h01]
      unfold Col.rounded
      dsimp only
      congr 1
      apply List.ext_getElem?
      intro j
      by_cases hj : j < N
      · obtain ⟨t, ht⟩ := List.mem_iff_getElem?.1 hcr
        rw [← hcols] at ht
        rw [hl3 j (by omega) t ht]
        obtain ⟨x, hx1, hx2⟩ := w4 i m hm j (by rw [h0.power]; exact hj) t c ht
        rw [hs1]
        rw [h0.power] at hx2
        rw [hx2, List.getElem?_map]
        rw [h01] at hx1
        unfold Col.at at hx1
        dsimp only at hx1
        have : l0[j]? = some x := by
          by_cases h1 : l0.length = 1
          · rw [if_pos h1] at hx1
            have : j = 0 := by omega
            subst this; exact hx1
          · rwa [if_neg h1] at hx1
        rw [this]; rfl
      · rw [List.getElem?_eq_none (by omega), List.getElem?_eq_none (by rw [List.length_map]; omega)]
    rw [hm', List.getElem?_map, hm]
    simp only [Option.map_some, Option.some.injEq]
    have e1 := hcolumn "k" (by simp) c2 (by simp)
    have e2 := hcolumn "power" (by simp) c3 (by simp)
    simp only [Meas.input, if_true, if_false, Col.rounded, Col.arr.injEq, String.reduceEq] at e1 e2
    have e3 : m'.error = m.error.rounded rnd := by
      have he := hreg.error
      cases herrs : errors with
      | false =>
        rw [herrs] at he
        simp only [Bool.false_eq_true, if_false] at he
        rw [he, herr (by rw [hcols]; exact c6 herrs)]
        rfl
      | true =>
        have := hcolumn "error" (by simp) (c5 herrs) (by simp)
        simpa [Meas.input] using this
    have e4 : m'.mu = m.mu.rounded rnd ∧ m'.ell = m.ell := by
      cases kind with
      | pole =>
        obtain ⟨p1, p2⟩ := hpole hkind
        have := hreg.mu
        simp only at this
        rw [this, p1, p2, hell, hv]
        exact ⟨rfl, rfl⟩
      | pkmu =>
        have := hcolumn "mu" (by simp) (c4 rfl) (fun _ => rfl)
        refine ⟨by simpa [Meas.input] using this, ?_⟩
        rw [hpk hkind, hell]
        rfl
    have e5 : m'.kind = m.kind := by rw [hkind, hreg.kindEq]
    cases m'
    simp only at *
    unfold Meas.rounded
    simp only [Meas.mk.injEq]
    exact ⟨e5, e1, e4.1, e2, e3, e4.2, hcol⟩
  · rw [List.getElem?_eq_none (by omega), List.getElem?_eq_none (by rw [List.length_map]; omega)]

/-- C118 (precision): six digits: a number changes by at most five millionths of itself, and a number that has been read does not change when it is written again. -/
theorem C118_precision {rnd : ℝ → ℤ} (h : Nearest rnd) (x : ℝ) : |round6 rnd x - x| ≤ 5 / 10 ^ 6 * |x| ∧ round6 rnd (round6 rnd x) = round6 rnd x := ⟨round6_error h x, round6_idem h x⟩

theorem rounded_rounded {rnd : ℝ → ℤ} (h : Nearest rnd) (m : Meas) : (m.rounded rnd).rounded rnd = m.rounded rnd := by
  have hl : ∀ l : List ℝ, (l.map (round6 rnd)).map (round6 rnd) = l.map (round6 rnd) := by
    intro l
    rw [List.map_map]
    exact List.map_congr_left fun x _ => round6_idem h x
  have hc : ∀ c : Col, (c.rounded rnd).rounded rnd = c.rounded rnd := by
    intro c
    cases c with
    | none => rfl
    | scalar x => simp only [Col.rounded, round6_idem h]
    | arr l => simp only [Col.rounded, hl]
  unfold Meas.rounded
  simp only [hl, hc]

/-- C118 (second round trip): measurements that were read from a file are read back exactly. -/
theorem C118_second_roundtrip {rnd : ℝ → ℤ} (h : Nearest rnd) (parse : List Char → Option ℝ) (kind : Kind) (errors : Bool) (N : ℕ) (hN : 0 < N) (ms : List Meas) (hne : ms ≠ [])
    (hms : ∀ m ∈ ms, Regular kind errors N m) (hread : ∃ ms0 : List Meas, ms = ms0.map (Meas.rounded rnd)) (names : List (List Char)) (hlen : names.length = ms.length)
    (hnames : ∀ (i : ℕ) (name : List Char) (m : Meas), names[i]? = some name → ms[i]? = some m → kindOf name = some kind ∧ ∃ v, parse ((parts name).getLastD []) = some v ∧ m.ell = if kind = .pole then some v else none) :
    ∃ f, write rnd ms = .ok f ∧ read parse names f = .ok ms := by
  obtain ⟨f, h1, h2⟩ := C118_roundtrip rnd parse kind errors N hN ms hne hms names hlen hnames
  refine ⟨f, h1, ?_⟩
  rw [h2]
  obtain ⟨ms0, rfl⟩ := hread
  rw [List.map_map]
  congr 1
  exact List.map_congr_left fun m _ => rounded_rounded h m

/-! ### Grids -/

theorem mapM_single (l : List Val) : (l.map fun x => [x]).mapM single = .ok l := by
  rw [mapM_ok single _ (fun r => r.headD none)]
  · rw [List.map_map]
    congr 1
    simp [Function.comp_def]
  · intro a ha
    obtain ⟨x, _, rfl⟩ := List.mem_map.1 ha
    rfl

/-- C118 (grids): a grid with as many centres as rows and columns is read back from its file exactly, including null cells. -/
theorem C118_grid (g : Grid) (hk : g.kCen.length = g.nk) (hm : g.muCen.length = g.nmu) : readGrid g.write = .ok g := by
  obtain ⟨nk, nmu, kc, mc, k, mu, modes⟩ := g
  simp only at hk hm
  obtain ⟨data, hdata⟩ : ∃ data : List (List Val), data = (List.finRange nk).flatMap fun i => (List.finRange nmu).map fun j => [k i j, mu i j, modes i j] := ⟨_, rfl⟩
  have h3 : ∀ r ∈ data, r.length = 3 := by
    intro r hr
    rw [hdata] at hr
    simp only [List.mem_flatMap, List.mem_map] at hr
    obtain ⟨i, _, j, _, rfl⟩ := hr
    rfl
  have hlen : data.length = nk * nmu := by
    rw [hdata, flatMap_length _ _ nmu (by simp), List.length_finRange]
  have hflat : data.flatten = data.flatMap id := by rw [List.flatMap_id]
  have hget : ∀ (i : Fin nk) (j : Fin nmu) (t : ℕ), t < 3 → data.flatten.getD ((i.val * nmu + j.val) * 3 + t) none = ([k i j, mu i j, modes i j])[t]?.getD none := by
    intro i j t ht
    rw [List.getD_eq_getElem?_getD, hflat, flatMap_uniform data id 3 h3 _ t ht, hdata, flatMap_uniform _ _ nmu (by simp) i.val j.val j.isLt]
    simp
  unfold readGrid Grid.write
  dsimp only
  rw [← hdata]
  have b1 : ((kc.map (fun x => [x]) ++ mc.map (fun x => [x]) ++ data).take nk) = kc.map fun x => [x] := by
    rw [List.append_assoc, List.take_left' (by simp [hk])]
  have b2 : ((kc.map (fun x => [x]) ++ mc.map (fun x => [x]) ++ data).drop nk).take nmu = mc.map fun x => [x] := by
    rw [List.append_assoc, List.drop_left' (by simp [hk]), List.take_left' (by simp [hm])]
  have b3 : (kc.map (fun x => [x]) ++ mc.map (fun x => [x]) ++ data).drop (nk + nmu) = data := by
    rw [List.drop_left' (by simp [hk, hm])]
  rw [b1, b2, b3, mapM_single, mapM_single]
  have hif1 : (!(data.all fun r => r.length == (data.headD []).length)) = false := by
    simp only [Bool.not_eq_false', List.all_eq_true, beq_iff_eq]
    intro r hr
    rw [h3 r hr]
    cases hd : data with
    | nil => rw [hd] at hr; cases hr
    | cons a l => exact (h3 a (by rw [hd]; simp)).symm
  have hif2 : data.flatten.length = nk * nmu * 3 := by
    rw [hflat, flatMap_length data id 3 h3, hlen]
  show (if (!(data.all fun r => r.length == (data.headD []).length)) = true then _ else if data.flatten.length ≠ nk * nmu * 3 then _ else _) = _
  rw [hif1, if_neg (by simp), if_neg (not_not.2 hif2)]
  congr 1
  simp only [Grid.mk.injEq, heq_eq_eq, true_and]
  refine ⟨?_, ?_, ?_⟩ <;> funext i j
  · have := hget i j 0 (by norm_num); simpa using this
  · have := hget i j 1 (by norm_num); simpa using this
  · have := hget i j 2 (by norm_num); simpa using this

/-- C118 (grids, limits): the theory is asked for exactly the cells with modes and a wavenumber within the limits. -/
theorem C118_restrict (g : Grid) (kmin kmax : ℝ) (i : Fin g.nk) (j : Fin g.nmu) (k m : ℝ) (hk : g.k i j = some k) :
    (g.restrict kmin kmax).modes i j = some m ↔ g.modes i j = some m ∧ kmin ≤ k ∧ k ≤ kmax := by
  unfold Grid.restrict
  dsimp only
  rw [hk]
  dsimp only
  split_ifs with h1 h2
  · simp only [reduceCtorEq, false_iff, not_and]; intro _ h; exact absurd h (not_le.2 h1)
  · simp only [reduceCtorEq, false_iff, not_and]; intro _ _; exact not_le.2 h2
  · exact ⟨fun h => ⟨h, not_lt.1 h1, not_lt.1 h2⟩, fun h => h.1⟩

end

end Verif.DataFile
