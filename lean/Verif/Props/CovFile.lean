import Verif.Lemmas.Cov
import Verif.Model.CovFile
/-
Property C11: saving a covariance matrix to plain text and loading it.
-/
namespace Verif.Cov

theorem readMany_map {β : Type} (p : Line → Except Err β) (w : β → Line) (rest : List Line) :
    ∀ l : List β, (∀ b ∈ l, p (w b) = .ok b) → readMany p l.length (l.map w ++ rest) = .ok (l, rest)
  | [], _ => rfl
  | b :: l, h => by
    simp only [List.length_cons, List.map_cons, List.cons_append, readMany, readline]
    rw [h b (by simp)]
    simp only
    rw [readMany_map p w rest l (fun b hb => h b (List.mem_cons_of_mem _ hb))]

/-- Metadata that survive: floats, integers, and non-empty float arrays whose number of values matches their shape. -/
def Attr.Survives : Attr → Prop
  | .flt _ => True
  | .int _ => True
  | .fltArray sh vs => sh ≠ [0] ∧ vs.length = sh.foldr (· * ·) 1 ∧ vs ≠ []
  | _ => False

theorem shape_tok (sh : List Nat) : (sh.map natTok).map dimOf = sh := by
  induction sh with
  | nil => rfl
  | cons a l ih => simp only [List.map_cons, ih]; simp [natTok, dimOf]

theorem readAttr_write (k : String) (v : Attr) (hv : v.Survives) (rest : List Line) :
    readAttr (([.word k, natTok (max 1 (v.shape.foldr (· * ·) 1)), .word v.cast] ++ v.shape.map natTok) :: (v.lines ++ rest)) =
      .ok ((k, v), rest) := by
  cases v with
  | bool b => exact absurd hv id
  | str s => exact absurd hv id
  | intArray s vs => exact absurd hv id
  | flt q => rfl
  | int z => rfl
  | fltArray sh vs =>
    obtain ⟨h1, h2, h3⟩ := hv
    have hn : (max 1 (sh.foldr (· * ·) 1)) = vs.length := by
      have : 0 < vs.length := List.length_pos_iff.2 h3
      omega
    simp only [readAttr, readline, List.cons_append, List.nil_append, Attr.shape, Attr.cast]
    show (if (sh.map natTok).map dimOf = [0] then _ else if "float64" = "float64" then _ else _) = _
    rw [shape_tok, if_neg h1, if_pos rfl, hn]
    simp only [Int.toNat_natCast, Attr.lines]
    rw [readMany_map parseFloat (fun v => [Tok.num v]) rest vs (fun _ _ => rfl)]

theorem readAttrsLoop_write (attrs : List (String × Attr)) (h : ∀ e ∈ attrs, e.2.Survives) :
    readAttrsLoop attrs.length (attrs.flatMap fun e =>
      ([.word e.1, natTok (max 1 (e.2.shape.foldr (· * ·) 1)), .word e.2.cast] ++ e.2.shape.map natTok) :: e.2.lines) =
      .ok attrs := by
  induction attrs with
  | nil => rfl
  | cons e l ih =>
    simp only [List.length_cons, List.flatMap_cons, readAttrsLoop]
    rw [List.cons_append, readAttr_write e.1 e.2 (h e (by simp))]
    simp only
    rw [ih (fun e he => h e (List.mem_cons_of_mem _ he))]

/-- **C11 (partial).**  For every matrix with at least two rows, its inverse not rescaled, and metadata of the surviving
kinds: saving and loading gives back the same storage, coordinates, dimension names and metadata.
Missing: one-row matrices, a rescaled inverse, boolean, string and integer-array metadata — all false, see the
counterexamples. -/
theorem C11_roundtrip_partial (c : Cov) (hwf : c.WF) (hN : 2 ≤ c.N) (hr : c.resc = 1) (dims : List String)
    (attrs : List (String × Attr)) (ha : ∀ e ∈ attrs, e.2.Survives) :
    fromPlaintext (toPlaintext c dims attrs) = .ok (c, dims, attrs) := by
  obtain ⟨N, d, c1, c2, r⟩ := c
  obtain ⟨hd, h1, h2⟩ := hwf
  simp only at hd h1 h2 hN hr
  subst hr
  have hlen : N * (N + 1) / 2 = d.length := by have := triu_length_eq N; omega
  have hwr : readAttrs (writeAttrs attrs) = .ok attrs := by
    unfold writeAttrs readAttrs
    by_cases h : attrs = []
    · simp [h, readline]
    · simp only [h, if_false, readline, natTok, parseInt, Int.toNat_natCast]
      exact readAttrsLoop_write attrs ha
  obtain ⟨m, hm, -⟩ := exists_pack N d hd
  obtain ⟨g, hg1, hg2⟩ := full_pack N m
  unfold toPlaintext
  simp only [List.cons_append, List.nil_append, List.append_assoc]
  unfold fromPlaintext
  simp only [readline, parseInt, natTok, Int.toNat_natCast, hlen]
  rw [readMany_map parseFloat (fun v => [Tok.num v]) _ d (fun _ _ => rfl)]
  simp only
  have hz : (c1.zip c2).length = N := by simp [h1, h2]
  have hrow := readMany_map parseRow (fun e : Coord × Coord => [.num e.1.1, .num e.1.2, .num e.2.1, .num e.2.2])
    (writeAttrs attrs) (c1.zip c2) (fun _ _ => rfl)
  rw [hz] at hrow
  rw [hrow]
  simp only
  rw [if_neg (by omega), hwr]
  simp only
  rw [hm, hg1]
  simp only
  congr 2
  · unfold construct
    congr 1
    · unfold pack
      apply List.map_congr_left
      rintro ⟨i, j⟩ hp
      have := mem_triu.1 hp
      simp only
      rw [hg2 i j (by omega) (by omega)]
      simp [this.1]
    · rw [List.map_fst_zip (by omega)]
    · rw [List.map_snd_zip (by omega)]
  · congr 1
    induction dims with
    | nil => rfl
    | cons a l ih => simp only [List.map_cons, List.filterMap_cons, ih]

/-- Two k-bins of one statistic. -/
def demoTwo : Cov := construct 2 (fun i j => (1 + i + j : Nat)) [(0, 1), (0, 2)] [(0, 1), (0, 2)]
example : fromPlaintext (toPlaintext demoTwo ["ell1", "k1", "ell2", "k2"]
      [("h", .flt (7 / 10)), ("n", .int 3), ("modes", .fltArray [2, 1] [5, 6])]) =
    .ok (demoTwo, ["ell1", "k1", "ell2", "k2"], [("h", .flt (7 / 10)), ("n", .int 3), ("modes", .fltArray [2, 1] [5, 6])]) := by
  decide +kernel
example : demoTwo.WF ∧ 2 ≤ demoTwo.N ∧ demoTwo.resc = 1 := ⟨⟨by decide, by decide, by decide⟩, by decide, by decide⟩

/-- **C11 fails** for a one-row matrix: loading raises. -/
theorem C11_one_row_counterexample (x : Rat) (dims : List String) :
    fromPlaintext (toPlaintext (construct 1 (fun _ _ => x) [(0, 0)] [(0, 0)]) dims []) = .error .typeError := by
  simp [toPlaintext, construct, pack, triu, writeAttrs, fromPlaintext, readline, parseInt, natTok, readMany, parseFloat, parseRow]

/-- **C11 fails** for a matrix whose inverse is rescaled: the factor is not saved. -/
theorem C11_rescaling_counterexample :
    (fromPlaintext (toPlaintext { demoTwo with resc := 1 / 2 } [] [])).map (fun r => r.1.resc) = .ok 1 := by decide +kernel

/-- **C11 fails** for metadata: `False` loads as `True`, a string gains a newline, an integer array does not load. -/
theorem C11_attrs_counterexample :
    (fromPlaintext (toPlaintext demoTwo [] [("a", .bool false), ("b", .str "x")])).map (fun r => r.2.2) =
      .ok [("a", .bool true), ("b", .str "x\n")] ∧
    (fromPlaintext (toPlaintext demoTwo [] [("a", .intArray [2] [1, 2])])).map (fun r => r.2.2) = .error .valueError := by
  decide +kernel

end Verif.Cov
