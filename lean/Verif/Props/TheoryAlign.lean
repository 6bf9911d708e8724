import Verif.Model.PowerData
import Verif.Lemmas.DataLims
/-
C33: the theory vector and the data vector are aligned bin by bin; the slices of the statistics partition the vector.
-/
namespace Verif.Cov

/-! ### the slices -/

theorem cumsums_getD (l : List Nat) {i : Nat} (h : i ≤ l.length) : (cumsums l).getD i 0 = (l.take i).sum := by
  unfold cumsums
  have : i < l.length + 1 := by omega
  simp [List.getD, this]

theorem flatten_drop {β : Type} : ∀ (ls : List (List β)) (i : Nat),
    ls.flatten.drop (((ls.map List.length).take i).sum) = (ls.drop i).flatten
  | _, 0 => by simp
  | [], i + 1 => by simp
  | l :: ls, i + 1 => by
    simp only [List.map_cons, List.take_succ_cons, List.sum_cons, List.drop_succ_cons, List.flatten_cons]
    rw [← flatten_drop ls i, List.drop_append_of_le_length_add]
where
  List.drop_append_of_le_length_add : ∀ {l l' : List β} {n : Nat}, List.drop (l.length + n) (l ++ l') = List.drop n l' := by
    intro l l' n
    rw [List.drop_append]
    simp

/-- **C33 (slices).**  The slices of the statistics cut the concatenated vector into the vectors of the individual
statistics: there is one slice per statistic, they are adjacent, start at 0 and end at the total length, and slice `i` of
the concatenation is exactly part `i`. -/
theorem C33_slices {β : Type} (parts : List (List β)) :
    (flatSlices (parts.map List.length)).length = parts.length ∧
    (∀ (i : Nat) (h : i < parts.length), ∃ a b, (flatSlices (parts.map List.length))[i]? = some (a, b) ∧
      a ≤ b ∧ b ≤ parts.flatten.length ∧ (parts.flatten.drop a).take (b - a) = parts[i] ∧
      (i = 0 → a = 0) ∧ (i + 1 = parts.length → b = parts.flatten.length) ∧
      (i + 1 < parts.length → ∃ c, (flatSlices (parts.map List.length))[i + 1]? = some (b, c))) := by
  refine ⟨by simp [flatSlices], ?_⟩
  intro i hi
  have hget : ∀ j (hj : j < parts.length), (flatSlices (parts.map List.length))[j]? =
      some ((((parts.map List.length).take j).sum), (((parts.map List.length).take (j + 1)).sum)) := by
    intro j hj
    unfold flatSlices
    rw [List.getElem?_map, List.getElem?_range (by simpa using hj)]
    simp only [Option.map_some]
    rw [cumsums_getD _ (by simp; omega), cumsums_getD _ (by simp; omega)]
  have hsucc : ((parts.map List.length).take (i + 1)).sum = ((parts.map List.length).take i).sum + parts[i].length := by
    rw [List.take_succ_eq_append_getElem (by simpa using hi)]
    simp
  have hb : ((parts.map List.length).take (i + 1)).sum ≤ parts.flatten.length := by
    rw [List.length_flatten]
    conv => rhs; rw [← List.take_append_drop (i + 1) (parts.map List.length), List.sum_append]
    omega
  refine ⟨_, _, hget i hi, by omega, hb, ?_, ?_, ?_, ?_⟩
  · rw [flatten_drop, hsucc, Nat.add_sub_cancel_left, List.drop_eq_getElem_cons hi, List.flatten_cons]
    simp
  · rintro rfl; rfl
  · intro h
    rw [List.length_flatten, List.take_of_length_le (by simp; omega)]
  · intro h
    exact ⟨_, hget (i + 1) h⟩

example : flatSlices [2, 0, 3] = [(0, 2), (2, 2), (2, 5)] := by decide

/-! ### the theory vector -/

/-- Distinct names. -/
def Named (stats : List StatInfo) : Prop := (stats.map (·.name)).Nodup

theorem gridOf_mem {stats : List StatInfo} (hn : Named stats) {s : StatInfo} (hs : s ∈ stats) :
    gridOf stats s.name = s.ks := by
  unfold gridOf
  induction stats with
  | nil => cases hs
  | cons t l ih =>
    rw [List.find?_cons]
    unfold Named at hn
    rw [List.map_cons, List.nodup_cons] at hn
    rcases List.mem_cons.1 hs with rfl | hs
    · simp
    · have : t.name ≠ s.name := fun e => hn.1 (e ▸ List.mem_map_of_mem (f := StatInfo.name) hs)
      simp only [this, decide_false]
      exact ih hn.2 hs

theorem filter_names_sub (pre mid post : List StatInfo) (hn : Named (pre ++ mid ++ post)) {group : List Nat}
    (hg : ∀ n, n ∈ group ↔ n ∈ mid.map (·.name)) :
    ((pre ++ mid ++ post).filter fun s => decide (s.name ∈ group)) = mid := by
  unfold Named at hn
  simp only [List.map_append, List.nodup_append, List.mem_append] at hn
  obtain ⟨⟨-, -, h1⟩, -, h2⟩ := hn
  rw [List.filter_append, List.filter_append]
  have e1 : (pre.filter fun s => decide (s.name ∈ group)) = [] := by
    rw [List.filter_eq_nil_iff]
    intro s hs h
    exact h1 s.name (List.mem_map_of_mem (f := StatInfo.name) hs) s.name ((hg _).1 (by simpa using h)) rfl
  have e2 : (mid.filter fun s => decide (s.name ∈ group)) = mid := by
    rw [List.filter_eq_self]
    intro s hs
    simpa using (hg _).2 (List.mem_map_of_mem (f := StatInfo.name) hs)
  have e3 : (post.filter fun s => decide (s.name ∈ group)) = [] := by
    rw [List.filter_eq_nil_iff]
    intro s hs h
    exact h2 s.name (Or.inr ((hg _).1 (by simpa using h))) s.name (List.mem_map_of_mem (f := StatInfo.name) hs) rfl
  rw [e1, e2, e3]
  simp

theorem joinK_const (g : List Rat) : ∀ gs : List (List Rat), gs ≠ [] → (∀ h ∈ gs, h = g) → joinK gs = g
  | [], hne, _ => absurd rfl hne
  | h :: gs, _, hall => by
    have hh : h = g := hall h (by simp)
    subst hh
    simp only [joinK]
    rw [if_pos]
    rw [List.all_eq_true]
    intro x hx
    simpa using hall x (List.mem_cons_of_mem _ hx)

theorem piece_own (tr : Transfer) (gs : List (List Rat)) (ident : Rat) (own : List Rat)
    (h : tr = .smooth → joinK gs = own) : piece tr gs ident own = own.map fun k => some (ident, k) := by
  cases tr with
  | window => rfl
  | smooth =>
    unfold piece
    rw [h rfl]
    apply List.map_congr_left
    intro k hk
    rw [if_pos hk]

/-- The pieces of one group whose statistics are consecutive in the data. -/
theorem groupPieces_ok (tr : Transfer) (pre mid post : List StatInfo) (hn : Named (pre ++ mid ++ post)) (group : List Nat)
    (hperm : group.Perm (mid.map (·.name)))
    (hord : group = mid.map (·.name) ∨ ∃ g, ∀ s ∈ mid, s.ks = g)
    (hsm : tr = .smooth → ∃ g, ∀ s ∈ mid, s.ks = g) :
    groupPieces tr (pre ++ mid ++ post) group = (dataVector mid).map some := by
  have hfil := filter_names_sub pre mid post hn (group := group) (fun n => hperm.mem_iff)
  have hgrid : ∀ s ∈ mid, gridOf (pre ++ mid ++ post) s.name = s.ks := fun s hs =>
    gridOf_mem hn (by simp [hs])
  unfold groupPieces
  simp only [hfil]
  have hj : tr = .smooth → ∀ s ∈ mid, joinK (group.map (gridOf (pre ++ mid ++ post))) = s.ks := by
    intro htr s hs
    obtain ⟨g, hg⟩ := hsm htr
    rw [hg s hs]
    apply joinK_const
    · intro h
      have : group = [] := List.map_eq_nil_iff.1 h
      rw [this] at hperm
      have := hperm.symm.eq_nil
      rw [List.map_eq_nil_iff] at this
      rw [this] at hs
      cases hs
    · intro h hh
      obtain ⟨n, hn', rfl⟩ := List.mem_map.1 hh
      obtain ⟨t, ht, rfl⟩ := List.mem_map.1 (hperm.mem_iff.1 hn')
      rw [hgrid t ht, hg t ht]
  have hgen : ∀ (group' : List Nat) (m : List StatInfo), group'.length = m.length → (∀ s ∈ m, s ∈ mid) →
      (∀ (i : Nat) (h1 : i < group'.length) (h2 : i < m.length), gridOf (pre ++ mid ++ post) group'[i] = m[i].ks) →
      ((group'.zip (m.map (·.ident))).flatMap fun e =>
        piece tr (group.map (gridOf (pre ++ mid ++ post))) e.2 (gridOf (pre ++ mid ++ post) e.1)) = (dataVector m).map some := by
    intro group'
    induction group' with
    | nil =>
      intro m hl _ _
      have : m = [] := List.eq_nil_of_length_eq_zero hl.symm
      subst this; rfl
    | cons n group' ih =>
      intro m hl hsub hk
      cases m with
      | nil => cases hl
      | cons s m =>
        simp only [List.map_cons, List.zip_cons_cons, List.flatMap_cons, dataVector, List.map_append, List.map_map]
        have h0 := hk 0 (by simp) (by simp)
        simp only [List.getElem_cons_zero] at h0
        rw [piece_own tr _ s.ident _ (fun htr => by rw [h0]; exact hj htr s (hsub s (by simp))), h0]
        have := ih m (by simpa using hl) (fun t ht => hsub t (List.mem_cons_of_mem _ ht)) (by
          intro i h1 h2
          have := hk (i + 1) (by simpa using h1) (by simpa using h2)
          simpa using this)
        rw [this]
        rfl
  apply hgen group mid (by simpa using hperm.length_eq) (fun s hs => hs)
  intro i h1 h2
  rcases hord with rfl | ⟨g, hg⟩
  · simp only [List.getElem_map]
    exact hgrid _ (List.getElem_mem h2)
  · have hm : group[i] ∈ mid.map (·.name) := hperm.mem_iff.1 (List.getElem_mem h1)
    obtain ⟨t, ht, e⟩ := List.mem_map.1 hm
    rw [← e, hgrid t ht, hg t ht, hg _ (List.getElem_mem h2)]

/-- **C33 (partial).**  Let the statistics with specific parameters be the first ones of the data, in data order, and
let `rest` be the other statistics in whatever order Python lists the set.  If the statistics listed in `rest` share one
k grid — or, with a window function, if `rest` happens to be in data order — then entry `i` of the theory vector is
the prediction for exactly the statistic and wavenumber of entry `i` of the data vector (in particular the vectors have
the same length and no entry is missing).
Missing: different k grids, and statistic-specific parameters on a later statistic (counterexamples below). -/
theorem C33_aligned_partial (tr : Transfer) (first others : List StatInfo) (hn : Named (first ++ others))
    (rest : List Nat) (hperm : rest.Perm (others.map (·.name)))
    (hk : (∃ g, ∀ s ∈ others, s.ks = g) ∨ (tr = .window ∧ rest = others.map (·.name))) :
    theoryVector tr (first ++ others) (first.map (·.name)) rest = (dataVector (first ++ others)).map some := by
  have hd : dataVector (first ++ others) = dataVector first ++ dataVector others := by
    simp [dataVector]
  rw [hd, List.map_append]
  unfold theoryVector
  congr 1
  · have aux : ∀ (a b : List StatInfo), a ++ b = first →
        ((b.map (·.name)).flatMap fun n => groupPieces tr (first ++ others) [n]) = (dataVector b).map some := by
      intro a b
      induction b generalizing a with
      | nil => intro _; rfl
      | cons s b ih =>
        intro hab
        have ih' := ih (a ++ [s]) (by simpa using hab)
        rw [List.map_cons, List.flatMap_cons, ih']
        have hsplit : first ++ others = a ++ [s] ++ (b ++ others) := by rw [← hab]; simp
        have := groupPieces_ok tr a [s] (b ++ others) (hsplit ▸ hn) [s.name] (List.Perm.refl _) (Or.inl rfl)
          (fun _ => ⟨s.ks, by simp⟩)
        rw [hsplit, this]
        simp [dataVector]
    exact aux [] first rfl
  · by_cases h : rest = []
    · rw [if_pos h]
      subst h
      have := hperm.symm.eq_nil
      rw [List.map_eq_nil_iff] at this
      rw [this]; rfl
    · rw [if_neg h]
      have := groupPieces_ok tr first others [] (by simpa using hn) rest hperm
        (by rcases hk with hk | ⟨-, hk⟩; exact Or.inr hk; exact Or.inl hk)
        (by
          intro htr
          rcases hk with hk | ⟨hk, -⟩
          · exact hk
          · rw [hk] at htr; cases htr)
      simpa using this

def demoStats : List StatInfo := [⟨10, 0, [1, 2]⟩, ⟨11, 2, [1, 2]⟩, ⟨12, 4, [1, 2]⟩]
example : Named demoStats ∧ [12, 11].Perm ((demoStats.drop 1).map (·.name)) ∧
    (∃ g, ∀ s ∈ demoStats.drop 1, s.ks = g) ∧
    theoryVector .smooth demoStats [10] [12, 11] =
      [some (0, 1), some (0, 2), some (2, 1), some (2, 2), some (4, 1), some (4, 2)] := by
  refine ⟨by unfold Named; decide, by decide, ⟨[1, 2], by decide⟩, by decide +kernel⟩

/-- The set of statistics happens to be listed as `[11, 10]` and the k grids differ: the prediction for the monopole is
computed on the quadrupole's grid and vice versa. -/
theorem C33_set_order_counterexample :
    theoryVector .window [⟨10, 0, [1, 2]⟩, ⟨11, 2, [1]⟩] [] [11, 10] = [some (0, 1), some (2, 1), some (2, 2)] ∧
    dataVector [⟨10, 0, [1, 2]⟩, ⟨11, 2, [1]⟩] = [(0, 1), (0, 2), (2, 1)] := by decide +kernel

/-- Without a window function, different fitting ranges make the vector too long, with missing entries. -/
theorem C33_ranges_counterexample :
    theoryVector .smooth [⟨10, 0, [1, 2]⟩, ⟨11, 2, [1]⟩] [] [10, 11] =
      [some (0, 1), some (0, 2), some (2, 1), none] := by decide +kernel

/-- Specific parameters for the second statistic only: its predictions come first in the theory vector. -/
theorem C33_specific_counterexample :
    theoryVector .window [⟨10, 0, [1]⟩, ⟨11, 2, [1]⟩] [11] [10] = [some (2, 1), some (0, 1)] ∧
    dataVector [⟨10, 0, [1]⟩, ⟨11, 2, [1]⟩] = [(0, 1), (2, 1)] := by decide +kernel

end Verif.Cov
