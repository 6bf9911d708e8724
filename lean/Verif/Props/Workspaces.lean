/-
C123: the workspaces of the quadrature.
-/
import Verif.Model.Workspaces
import Mathlib.Data.List.Perm.Subperm
import Mathlib.Data.List.Lattice

namespace Verif.Workspaces

/-- The state after a sequence of events -/
def run (es : List Ev) : St := es.foldl step St.init

/-- The invariant: the addresses of the map are distinct, the workspaces of the integrals under way or failed are distinct, and they are the entries in use, with their dimensions -/
structure Inv (s : St) : Prop where
  addrs : (s.table.map Entry.addr).Nodup
  held : ((s.active ++ s.lost).map Prod.fst).Nodup
  used : ∀ e ∈ s.table, e.used = true ↔ (e.addr, e.dim) ∈ s.active ++ s.lost
  there : ∀ p ∈ s.active ++ s.lost, ∃ e ∈ s.table, e.addr = p.1 ∧ e.dim = p.2

theorem Inv.init : Inv St.init := ⟨by simp [St.init], by simp [St.init], by simp [St.init], by simp [St.init]⟩

theorem addr_inj {t : Table} (h : (t.map Entry.addr).Nodup) {e d : Entry} (he : e ∈ t) (hd : d ∈ t) (hh : e.addr = d.addr) : e = d :=
  List.inj_on_of_nodup_map h he hd hh

theorem take_some {n : ℕ} {t t' : Table} {a : ℕ} (h : take n t = some (a, t')) :
    ∃ l r, ∃ e : Entry, t = l ++ e :: r ∧ t' = l ++ { e with used := true } :: r ∧ e.addr = a ∧ e.dim = n ∧ e.used = false := by
  induction t generalizing t' with
  | nil => simp [take] at h
  | cons e t ih =>
    unfold take at h
    split at h
    · rename_i hc
      simp only [Option.some.injEq, Prod.mk.injEq] at h
      obtain ⟨rfl, rfl⟩ := h
      exact ⟨[], t, e, rfl, rfl, rfl, hc.1, hc.2⟩
    · simp only [Option.map_eq_some_iff, Prod.mk.injEq] at h
      obtain ⟨⟨b, u⟩, h1, rfl, rfl⟩ := h
      obtain ⟨l, r, d, rfl, rfl, h2⟩ := ih h1
      exact ⟨e :: l, r, d, rfl, rfl, h2⟩

theorem take_none {n : ℕ} {t : Table} (h : take n t = none) : ∀ e ∈ t, e.dim = n → e.used = true := by
  induction t with
  | nil => simp
  | cons e t ih =>
    unfold take at h
    split at h
    · simp at h
    · rename_i hc
      simp only [Option.map_eq_none_iff] at h
      intro d hd hdn
      rcases List.mem_cons.1 hd with rfl | hd
      · by_contra hu
        exact hc ⟨hdn, by simpa using hu⟩
      · exact ih h d hd hdn

theorem insert_perm (e : Entry) (t : Table) : (insert e t).Perm (e :: t) := by
  induction t with
  | nil => exact List.Perm.refl _
  | cons d t ih =>
    unfold insert
    split
    · exact List.Perm.refl _
    · exact (List.Perm.cons d ih).trans (List.Perm.swap e d t)

theorem Inv.start {s : St} (h : Inv s) (n fresh : ℕ) (hf : ∀ e ∈ s.table, e.addr ≠ fresh) : Inv (step s (.start n fresh)) := by
  have hmem : ∀ a m : ℕ, ∀ q : ℕ × ℕ, q ∈ (s.active ++ [(a, m)]) ++ s.lost ↔ q = (a, m) ∨ q ∈ s.active ++ s.lost := by
    intro a m q
    simp only [List.mem_append, List.mem_singleton]
    tauto
  have hnod : ∀ a m : ℕ, a ∉ (s.active ++ s.lost).map Prod.fst → (((s.active ++ [(a, m)]) ++ s.lost).map Prod.fst).Nodup := by
    intro a m ha
    have hp : ((s.active ++ [(a, m)]) ++ s.lost).Perm ((a, m) :: (s.active ++ s.lost)) := by
      rw [List.append_assoc, List.singleton_append]
      exact List.perm_middle
    rw [(hp.map Prod.fst).nodup_iff]
    simp only [List.map_cons, List.nodup_cons]
    exact ⟨ha, h.held⟩
  unfold step get
  simp only []
  rcases ht : take n s.table with _ | ⟨a, t'⟩
  · -- a new workspace
    simp only []
    have hp := insert_perm ⟨fresh, n, true⟩ s.table
    have hfr : fresh ∉ (s.active ++ s.lost).map Prod.fst := by
      intro hc
      obtain ⟨q, hq, hq1⟩ := List.mem_map.1 hc
      obtain ⟨e, he, he1, _⟩ := h.there q hq
      exact hf e he (by rw [he1, hq1])
    refine ⟨?_, hnod fresh n hfr, ?_, ?_⟩
    · rw [(hp.map _).nodup_iff]
      simp only [List.map_cons, List.nodup_cons]
      refine ⟨?_, h.addrs⟩
      intro hc
      obtain ⟨e, he, he1⟩ := List.mem_map.1 hc
      exact hf e he he1
    · intro e he
      rw [hmem]
      rcases List.mem_cons.1 (hp.mem_iff.1 he) with rfl | he
      · simp
      · have hne : (e.addr, e.dim) ≠ (fresh, n) := fun hc => hf e he (congrArg Prod.fst hc)
        rw [h.used e he]
        simp [hne]
    · intro q hq
      rw [hmem] at hq
      rcases hq with rfl | hq
      · exact ⟨⟨fresh, n, true⟩, hp.mem_iff.2 (by simp), rfl, rfl⟩
      · obtain ⟨e, he, h1⟩ := h.there q hq
        exact ⟨e, hp.mem_iff.2 (by simp [he]), h1⟩
  · -- a free one
    simp only []
    obtain ⟨l, r, e, h1, rfl, rfl, rfl, hu⟩ := take_some ht
    have hadd : (l ++ { e with used := true } :: r).map Entry.addr = s.table.map Entry.addr := by rw [h1]; simp
    have het : e ∈ s.table := by rw [h1]; simp
    have hna : e.addr ∉ (s.active ++ s.lost).map Prod.fst := by
      intro hc
      obtain ⟨q, hq, hq1⟩ := List.mem_map.1 hc
      obtain ⟨d, hd, hd1, hd2⟩ := h.there q hq
      have : d = e := addr_inj h.addrs hd het (by rw [hd1, hq1])
      subst this
      have : d.used = true := (h.used d hd).2 (by rw [hd1, hd2]; exact hq)
      rw [hu] at this
      simp at this
    have hoth : ∀ d, d ∈ l ∨ d ∈ r → d ∈ s.table ∧ d.addr ≠ e.addr := by
      intro d hd
      refine ⟨by rw [h1]; rcases hd with hd | hd <;> simp [hd], ?_⟩
      have hn := h.addrs
      rw [h1, List.map_append, List.map_cons, List.nodup_append] at hn
      rcases hd with hd | hd
      · exact hn.2.2 d.addr (List.mem_map_of_mem hd) e.addr (by simp)
      · intro hc
        exact (List.nodup_cons.1 hn.2.1).1 (by rw [← hc]; exact List.mem_map_of_mem hd)
    refine ⟨by rw [hadd]; exact h.addrs, hnod e.addr e.dim hna, ?_, ?_⟩
    · intro d hd
      rw [hmem]
      have hcase : d = { e with used := true } ∨ (d ∈ l ∨ d ∈ r) := by
        rcases List.mem_append.1 hd with hd | hd
        · exact Or.inr (Or.inl hd)
        · rcases List.mem_cons.1 hd with hd | hd
          · exact Or.inl hd
          · exact Or.inr (Or.inr hd)
      rcases hcase with rfl | hd
      · simp
      · obtain ⟨hd1, hd2⟩ := hoth d hd
        have hne : (d.addr, d.dim) ≠ (e.addr, e.dim) := fun hc => hd2 (congrArg Prod.fst hc)
        rw [h.used d hd1]
        simp [hne]
    · intro q hq
      rw [hmem] at hq
      rcases hq with rfl | hq
      · exact ⟨{ e with used := true }, by simp, rfl, rfl⟩
      · obtain ⟨d, hd, hd1, hd2⟩ := h.there q hq
        rw [h1] at hd
        rcases List.mem_append.1 hd with hd | hd
        · exact ⟨d, by simp [hd], hd1, hd2⟩
        · rcases List.mem_cons.1 hd with rfl | hd
          · exact ⟨{ d with used := true }, by simp, hd1, hd2⟩
          · exact ⟨d, by simp [hd], hd1, hd2⟩

theorem erase_perm {α : Type} (l : List α) (i : ℕ) (p : α) (h : l[i]? = some p) : l.Perm (p :: l.eraseIdx i) := by
  induction l generalizing i with
  | nil => simp at h
  | cons x l ih =>
    rcases i with _ | i
    · simp only [List.getElem?_cons_zero, Option.some.injEq] at h
      subst h
      exact List.Perm.refl _
    · simp only [List.getElem?_cons_succ] at h
      simp only [List.eraseIdx_cons_succ]
      exact (List.Perm.cons x (ih i h)).trans (List.Perm.swap _ _ _)

theorem Inv.finish {s : St} (h : Inv s) (i : ℕ) : Inv (step s (.finish i)) := by
  unfold step
  rcases hi : s.active[i]? with _ | p
  · simp only [hi]
    exact h
  · simp only [hi]
    have hp := erase_perm _ _ _ hi
    have hp2 : (s.active ++ s.lost).Perm (p :: (s.active.eraseIdx i ++ s.lost)) := hp.append_right s.lost
    have hn := h.held
    rw [(hp2.map Prod.fst).nodup_iff, List.map_cons, List.nodup_cons] at hn
    have hrel : ∀ e, e ∈ release p.1 s.table ↔ ∃ d ∈ s.table, e = if d.addr = p.1 then { d with used := false } else d := by
      intro e
      simp only [release, List.mem_map, eq_comm]
    refine ⟨?_, hn.2, ?_, ?_⟩
    · have : (release p.1 s.table).map Entry.addr = s.table.map Entry.addr := by
        simp only [release, List.map_map]
        refine List.map_congr_left ?_
        intro e _
        simp only [Function.comp]
        split <;> rfl
      rw [this]
      exact h.addrs
    · intro e he
      obtain ⟨d, hd, rfl⟩ := (hrel e).1 he
      by_cases hc : d.addr = p.1
      · simp only [hc, if_true]
        constructor
        · intro h1
          simp at h1
        · intro h1
          exact absurd (List.mem_map.2 ⟨_, h1, rfl⟩) hn.1
      · simp only [hc, if_false]
        rw [h.used d hd, hp2.mem_iff]
        have : (d.addr, d.dim) ≠ p := fun hh => hc (congrArg Prod.fst hh)
        simp [this]
    · intro q hq
      obtain ⟨d, hd, hd1, hd2⟩ := h.there q (hp2.mem_iff.2 (List.mem_cons_of_mem _ hq))
      refine ⟨if d.addr = p.1 then { d with used := false } else d, (hrel _).2 ⟨d, hd, rfl⟩, ?_, ?_⟩ <;> split <;> assumption

theorem Inv.fail {s : St} (h : Inv s) (i : ℕ) : Inv (step s (.fail i)) := by
  unfold step
  rcases hi : s.active[i]? with _ | p
  · simp only [hi]
    exact h
  · simp only [hi]
    have hp := erase_perm _ _ _ hi
    have hp2 : (s.active ++ s.lost).Perm (s.active.eraseIdx i ++ (s.lost ++ [p])) := by
      have h1 : (s.active ++ s.lost).Perm (p :: (s.active.eraseIdx i ++ s.lost)) := hp.append_right s.lost
      refine h1.trans ?_
      rw [← List.append_assoc]
      exact (List.perm_append_singleton p _).symm
    refine ⟨h.addrs, ?_, ?_, ?_⟩
    · exact ((hp2.map Prod.fst).nodup_iff).1 h.held
    · intro e he
      rw [h.used e he, hp2.mem_iff]
    · intro q hq
      exact h.there q (hp2.mem_iff.2 hq)

theorem Inv.foldl {s : St} (h : Inv s) (es : List Ev) (hok : Ok s es) : Inv (es.foldl step s) := by
  induction es generalizing s with
  | nil => exact h
  | cons e es ih =>
    rcases e with ⟨n, fresh⟩ | i | i
    · exact ih (h.start n fresh hok.1) hok.2
    · exact ih (h.finish i) hok
    · exact ih (h.fail i) hok

/-- **C123.** Whatever integrals are started, finished or aborted, in any order and nesting, no two that are under way have the same workspace, none has that of an aborted one, and each has one of its
dimension. -/
theorem C123_exclusive (es : List Ev) (hok : Ok St.init es) :
    ((run es).active.map Prod.fst).Nodup ∧ (∀ p ∈ (run es).active, p.1 ∉ (run es).lost.map Prod.fst) ∧ ∀ p ∈ (run es).active, ∃ e ∈ (run es).table, e.addr = p.1 ∧ e.dim = p.2 ∧ e.used = true := by
  have h : Inv (run es) := Inv.init.foldl es hok
  have hn := h.held
  rw [List.map_append, List.nodup_append] at hn
  refine ⟨hn.1, ?_, ?_⟩
  · intro p hp hc
    exact hn.2.2 p.1 (List.mem_map_of_mem hp) p.1 hc rfl
  · intro p hp
    obtain ⟨e, he, h1, h2⟩ := h.there p (by simp [hp])
    exact ⟨e, he, h1, h2, (h.used e he).2 (by rw [h1, h2]; simp [hp])⟩

example : Ok St.init [.start 1 5, .start 1 3, .finish 0, .start 1 9, .start 2 7] ∧ (run [.start 1 5, .start 1 3, .finish 0, .start 1 9, .start 2 7]).active = [(3, 1), (5, 1), (7, 2)] := by
  refine ⟨?_, rfl⟩
  simp [Ok, step, get, take, insert, release, St.init]

/-- How many integrals over `n` dimensions are under way or were aborted -/
def demand (n : ℕ) (s : St) : ℕ := ((s.active ++ s.lost).filter fun p => p.2 = n).length

/-- How many workspaces for `n` dimensions are allocated -/
def supply (n : ℕ) (s : St) : ℕ := (s.table.filter fun e => e.dim = n).length

theorem supply_le {s : St} (h : Inv s) (n : ℕ) (hall : ∀ e ∈ s.table, e.dim = n → e.used = true) : supply n s ≤ demand n s := by
  unfold supply demand
  have h1 : ((s.table.filter fun e => e.dim = n).map fun e => (e.addr, e.dim)).Nodup := by
    refine List.Nodup.of_map Prod.fst ?_
    rw [List.map_map]
    exact h.addrs.sublist (List.filter_sublist.map _)
  have h2 : ((s.table.filter fun e => e.dim = n).map fun e => (e.addr, e.dim)) ⊆ (s.active ++ s.lost).filter fun p => p.2 = n := by
    intro q hq
    obtain ⟨e, he, rfl⟩ := List.mem_map.1 hq
    obtain ⟨he1, he2⟩ := List.mem_filter.1 he
    have he3 : e.dim = n := by simpa using he2
    exact List.mem_filter.2 ⟨(h.used e he1).1 (hall e he1 he3), by simpa using he3⟩
  have h3 := (List.subperm_of_subset h1 h2).length_le
  simpa using h3

/-- Workspaces are reused: there are never more of a dimension than integrals of that dimension were under way (or aborted) at one time. -/
theorem C123_reuse (es : List Ev) (hok : Ok St.init es) (n M : ℕ) (hM : ∀ k, k ≤ es.length → demand n (run (es.take k)) ≤ M) : supply n (run es) ≤ M := by
  suffices H : ∀ (es : List Ev) (s : St), Inv s → Ok s es → supply n s ≤ M → (∀ k, k ≤ es.length → demand n ((es.take k).foldl step s) ≤ M) → supply n (es.foldl step s) ≤ M from
    H es St.init Inv.init hok (by simp [supply, St.init]) hM
  intro es
  induction es with
  | nil => intro s _ _ h _; exact h
  | cons e es ih =>
    intro s hI hok hs hd
    have hd' : ∀ k, k ≤ es.length → demand n ((es.take k).foldl step (step s e)) ≤ M := by
      intro k hk
      have := hd (k + 1) (by simpa using hk)
      simpa using this
    rcases e with ⟨m, fresh⟩ | i | i
    · have hI' := hI.start m fresh hok.1
      refine ih _ hI' hok.2 ?_ hd'
      rcases ht : take m s.table with _ | ⟨a, t'⟩
      · by_cases hmn : m = n
        · subst hmn
          have h1 := hd' 0 (by simp)
          simp only [List.take_zero, List.foldl_nil] at h1
          refine le_trans (supply_le hI' m ?_) h1
          intro e he hem
          have he' : e ∈ insert ⟨fresh, m, true⟩ s.table := by
            simpa [step, get, ht] using he
          rcases List.mem_cons.1 ((insert_perm _ _).mem_iff.1 he') with rfl | h2
          · rfl
          · exact take_none ht e h2 hem
        · have : supply n (step s (.start m fresh)) = supply n s := by
            simp only [supply, step, get, ht]
            rw [((insert_perm ⟨fresh, m, true⟩ s.table).filter _).length_eq]
            simp [hmn]
          omega
      · obtain ⟨l, r, e, h1, h2, _, _, _⟩ := take_some ht
        have : supply n (step s (.start m fresh)) = supply n s := by
          simp only [supply, step, get, ht]
          rw [h1, h2]
          simp only [List.filter_append, List.filter_cons, List.length_append]
          split <;> simp
        omega
    · refine ih _ (hI.finish i) hok ?_ hd'
      have : supply n (step s (.finish i)) = supply n s := by
        unfold step
        rcases hi : s.active[i]? with _ | p
        · simp only [hi]
        · simp only [hi, supply, release, List.filter_map, List.length_map]
          congr 2
          funext e
          simp only [Function.comp]
          split <;> rfl
      omega
    · refine ih _ (hI.fail i) hok ?_ hd'
      have : supply n (step s (.fail i)) = supply n s := by
        unfold step
        rcases hi : s.active[i]? with _ | p
        · simp only [hi]
        · simp only [hi, supply]
      omega

/-- Counterexample to "workspaces are given back": an integral that ends by an exception keeps its workspace marked, so that repeating it takes another one each time. -/
theorem C123_leak_counterexample (k : ℕ) : ∃ es, Ok St.init es ∧ es.length = 2 * k ∧ (run es).active = [] ∧ supply 1 (run es) = k := by
  suffices H : ∀ k, ∃ es, Ok St.init es ∧ es.length = 2 * k ∧ (run es).active = [] ∧ supply 1 (run es) = k ∧ (∀ e ∈ (run es).table, e.used = true ∧ e.addr < k) by
    obtain ⟨es, h1, h2, h3, h4, _⟩ := H k
    exact ⟨es, h1, h2, h3, h4⟩
  intro k
  induction k with
  | zero => exact ⟨[], trivial, rfl, rfl, rfl, by simp [run, St.init]⟩
  | succ k ih =>
    obtain ⟨es, h1, h2, h3, h4, h5⟩ := ih
    have htake : take 1 (run es).table = none := by
      have : ∀ t : Table, (∀ e ∈ t, e.used = true) → take 1 t = none := by
        intro t
        induction t with
        | nil => intro _; rfl
        | cons e t ih =>
          intro h
          have he := h e (by simp)
          simp [take, he, ih (fun d hd => h d (by simp [hd]))]
      exact this _ fun e he => (h5 e he).1
    have hrun : run (es ++ [.start 1 k, .fail 0]) = ⟨insert ⟨k, 1, true⟩ (run es).table, [], (run es).lost ++ [(k, 1)]⟩ := by
      have hr : run (es ++ [.start 1 k, .fail 0]) = step (step (run es) (.start 1 k)) (.fail 0) := by simp [run]
      rw [hr]
      simp [step, get, htake, h3]
    have hok : ∀ (as : List Ev) (s : St) (bs : List Ev), Ok s as → Ok (as.foldl step s) bs → Ok s (as ++ bs) := by
      intro as
      induction as with
      | nil => intro s bs _ h; exact h
      | cons a as ih =>
        intro s bs ha hb
        rcases a with ⟨n, f⟩ | i | i
        · exact ⟨ha.1, ih _ _ ha.2 hb⟩
        · exact ih _ _ ha hb
        · exact ih _ _ ha hb
    refine ⟨es ++ [.start 1 k, .fail 0], hok es St.init [.start 1 k, .fail 0] h1 (And.intro ?_ trivial), by simp [h2]; omega, by rw [hrun], ?_, ?_⟩
    · intro e he
      have := (h5 e he).2
      omega
    · rw [hrun]
      simp only [supply]
      rw [((insert_perm ⟨k, 1, true⟩ (run es).table).filter _).length_eq]
      simp only [supply] at h4
      simp [h4]
    · rw [hrun]
      intro e he
      rcases List.mem_cons.1 ((insert_perm _ _).mem_iff.1 he) with rfl | he
      · exact ⟨rfl, by simp⟩
      · have := h5 e he
        exact ⟨this.1, by omega⟩

/-- Counterexample to "the table is protected against simultaneous access": only taking a workspace is a critical section, giving one back is not, so that a thread can change the map while another is
searching it or inserting into it. -/
theorem C123_race_counterexample : ∃ as, accesses (none, false) as = some (some 1, true) :=
  ⟨[.enter 2, .leave 2, .enter 1, .release 2], rfl⟩

end Verif.Workspaces
