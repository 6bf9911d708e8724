import Verif.Model.PlotNames
import Mathlib.Data.Nat.Digits.Lemmas
import Mathlib.Tactic.IntervalCases
import Mathlib.Tactic.Linarith
import Mathlib.Tactic.NormNum
import Mathlib.Tactic.Positivity
import Mathlib.Tactic.FieldSimp
import Mathlib.Tactic.Ring

/-!
# C149: the label of a scaled parameter

The label of a parameter divided by a power of ten, or by an integer below one thousand, names the factor.
-/

namespace Verif.PlotNames

/-! ### Decimals -/

theorem digitChar_isDigit {d : ℕ} (h : d < 10) : (Nat.digitChar d).isDigit = true := by interval_cases d <;> rfl

theorem digitChar_zero {d : ℕ} (h : d < 10) (h0 : d ≠ 0) : Nat.digitChar d ≠ '0' := by interval_cases d <;> first | exact absurd rfl h0 | decide

theorem dec_isDigit {n : ℕ} : ∀ c ∈ dec n, c.isDigit = true := by
  intro c hc
  obtain ⟨d, hd, rfl⟩ := List.mem_map.1 hc
  exact digitChar_isDigit (Nat.digits_lt_base (by norm_num) (List.mem_reverse.1 hd))

theorem dec_cons {n : ℕ} (hn : n ≠ 0) : ∃ c l, dec n = c :: l ∧ c ≠ '0' := by
  have hne : Nat.digits 10 n ≠ [] := Nat.digits_ne_nil_iff_ne_zero.2 hn
  have h1 : (Nat.digits 10 n).reverse = (Nat.digits 10 n).getLast hne :: (Nat.digits 10 n).dropLast.reverse := by
    conv_lhs => rw [← List.dropLast_append_getLast hne]
    simp
  refine ⟨_, _, by rw [dec, h1, List.map_cons], ?_⟩
  exact digitChar_zero (Nat.digits_lt_base (by norm_num) (List.getLast_mem hne)) (Nat.getLast_digit_ne_zero 10 hn)

theorem drop_digits {a r : Label} (ha : ∀ c ∈ a, c.isDigit = true) (hr : ∀ c ∈ r.head?, c.isDigit = false) : (a ++ r).dropWhile Char.isDigit = r := by
  induction a with
  | nil =>
    cases r with
    | nil => rfl
    | cons c r => simp [hr c (by simp)]
  | cons c a ih => simp [ha c (by simp), ih fun d hd => ha d (List.mem_cons_of_mem _ hd)]

theorem take_digits {a r : Label} (ha : ∀ c ∈ a, c.isDigit = true) (hr : ∀ c ∈ r.head?, c.isDigit = false) : (a ++ r).takeWhile Char.isDigit = a := by
  induction a with
  | nil =>
    cases r with
    | nil => rfl
    | cons c r => simp [hr c (by simp)]
  | cons c a ih => simp [ha c (by simp), ih fun d hd => ha d (List.mem_cons_of_mem _ hd)]

theorem drop_zeros {e : ℕ} {r : Label} (hr : ∀ c ∈ r.head?, c.isDigit = false) : (expText e ++ r).dropWhile (· == '0') = dec e ++ r := by
  have h0 : ∀ n : ℕ, n ≠ 0 → (dec n ++ r).dropWhile (· == '0') = dec n ++ r := by
    intro n hn
    obtain ⟨c, l, h, hc⟩ := dec_cons hn
    rw [h]
    simp [hc]
  unfold expText
  split_ifs with h h'
  · subst h
    have : r.dropWhile (· == '0') = r := by
      cases r with
      | nil => rfl
      | cons c r =>
        have hc := hr c (by simp)
        have : c ≠ '0' := fun h => by subst h; simp at hc
        simp [this]
    simpa [dec] using this
  · simpa using h0 e h
  · exact h0 e h

theorem take_all {r : Label} (h : '\n' ∉ r) : r.takeWhile (· != '\n') = r := by
  induction r with
  | nil => rfl
  | cons c r ih =>
    have hc : c ≠ '\n' := fun h' => h (by simp [h'])
    rw [List.takeWhile_cons_of_pos (by simpa using hc), ih fun h' => h (List.mem_cons_of_mem _ h')]

theorem matchAt_sci {m e : ℕ} {s sign : Char} {r : Label} (hr : ∀ c ∈ r.head?, c.isDigit = false) (hn : '\n' ∉ r) :
    matchAt sign ('$' :: (dec m ++ 'e' :: s :: (expText e ++ r))) = if s = sign then some (dec e, r) else none := by
  have h1 : (dec m ++ 'e' :: s :: (expText e ++ r)).dropWhile Char.isDigit = 'e' :: s :: (expText e ++ r) :=
    drop_digits dec_isDigit fun c hc => by simp at hc; subst hc; rfl
  simp only [matchAt, h1, drop_zeros hr, take_digits dec_isDigit hr, drop_digits dec_isDigit hr, take_all hn]

theorem search_none {sign : Char} {l : Label} (h : '$' ∉ l) : search sign (l ++ ['$']) = none := by
  induction l with
  | nil => simp [search, matchAt]
  | cons c l ih =>
    have hc : c ≠ '$' := fun h' => h (by simp [h'])
    have : matchAt sign (c :: (l ++ ['$'])) = none := by
      unfold matchAt
      split
      · rename_i heq
        simp at heq
        exact absurd heq.1 hc
      · rfl
    simp only [List.cons_append, search, this]
    exact ih fun h' => h (List.mem_cons_of_mem _ h')

theorem dec_dollar (n : ℕ) : '$' ∉ dec n := fun h => by
  have := dec_isDigit _ h
  simp at this

theorem expText_dollar (n : ℕ) : '$' ∉ expText n := by
  unfold expText
  split_ifs
  · decide
  · intro h
    rcases List.mem_cons.1 h with h | h
    · exact absurd h (by decide)
    · exact dec_dollar _ h
  · exact dec_dollar _

/-! ### The exponent -/

theorem nearest_bounds {y : ℚ} (hy : 0 ≤ y) : (nearest y : ℚ) - 1 / 2 ≤ y ∧ y ≤ nearest y + 1 / 2 := by
  have h1 := Nat.floor_le hy
  have h2 := Nat.lt_floor_add_one y
  unfold nearest
  split_ifs with h3 h4 h5
  · constructor <;> linarith
  · push_cast
    constructor <;> linarith
  · constructor <;> linarith
  · push_cast
    constructor <;> linarith

/-- The digit is from one to nine, and the exponent gives the order of the number. -/
theorem mantExp_spec {x : ℚ} (hx : 0 < x) : 1 ≤ (mantExp x).1 ∧ (mantExp x).1 ≤ 9 ∧ 19 / 20 * (10 : ℚ) ^ (mantExp x).2 ≤ x ∧ x ≤ 19 / 2 * (10 : ℚ) ^ (mantExp x).2 ∧
    ((mantExp x).1 - 1 / 2) * (10 : ℚ) ^ (mantExp x).2 ≤ x ∧ x ≤ ((mantExp x).1 + 1 / 2) * (10 : ℚ) ^ (mantExp x).2 := by
  have h1 : (10 : ℚ) ^ (Int.log 10 x) ≤ x := Int.zpow_log_le_self (by norm_num) hx
  have h2 : x < (10 : ℚ) ^ (Int.log 10 x + 1) := Int.lt_zpow_succ_log_self (by norm_num) x
  have hp : (0 : ℚ) < (10 : ℚ) ^ (Int.log 10 x) := zpow_pos (by norm_num) _
  have hs : (10 : ℚ) ^ (Int.log 10 x + 1) = 10 * (10 : ℚ) ^ (Int.log 10 x) := by
    rw [zpow_add₀ (by norm_num), zpow_one]
    ring
  obtain ⟨y, hy⟩ : ∃ y, y = x / (10 : ℚ) ^ (Int.log 10 x) := ⟨_, rfl⟩
  have hyx : x = y * (10 : ℚ) ^ (Int.log 10 x) := by rw [hy]; field_simp
  have hy1 : 1 ≤ y := by rw [hy, le_div_iff₀ hp]; linarith
  have hy2 : y < 10 := by rw [hy, div_lt_iff₀ hp]; linarith
  obtain ⟨h3, h4⟩ := nearest_bounds (y := y) (by linarith)
  have hN1 : 1 ≤ nearest y := by
    by_contra hc
    have : nearest y = 0 := by omega
    rw [this] at h4
    norm_num at h4
    linarith
  have hN2 : nearest y ≤ 10 := by
    by_contra hc
    have : (11 : ℚ) ≤ nearest y := by exact_mod_cast (by omega : 11 ≤ nearest y)
    linarith
  unfold mantExp
  rw [← hy]
  split_ifs with h
  · rw [h] at h3
    push_cast at h3
    dsimp only
    rw [hs]
    generalize (10 : ℚ) ^ (Int.log 10 x) = p at *
    have h5 : 19 / 2 * p ≤ y * p := mul_le_mul_of_nonneg_right (by linarith) hp.le
    refine ⟨le_rfl, by norm_num, ?_, ?_, ?_, ?_⟩ <;> push_cast <;> linarith
  · dsimp only
    have hN3 : (nearest y : ℚ) ≤ 9 := by exact_mod_cast (by omega : nearest y ≤ 9)
    generalize (10 : ℚ) ^ (Int.log 10 x) = p at *
    refine ⟨hN1, by omega, by linarith, ?_, ?_, ?_⟩
    · rw [hyx]; exact mul_le_mul_of_nonneg_right (by linarith) hp.le
    · rw [hyx]; exact mul_le_mul_of_nonneg_right (by linarith) hp.le
    · rw [hyx]; exact mul_le_mul_of_nonneg_right (by linarith) hp.le

/-! ### The label -/

/-- A latex name: a text without dollars, or between two -/
def Named (name body : Label) : Prop := '$' ∉ body ∧ (name = body ∨ name = '$' :: (body ++ ['$']))

theorem strip_named {name body : Label} (h : Named name body) : strip name = body := by
  obtain ⟨h1, rfl | rfl⟩ := h
  · have : name.count '$' = 0 := List.count_eq_zero.2 h1
    rw [strip, this]
    simp
  · have hd : ∀ l : Label, '$' ∉ l → ∀ r, (l ++ '$' :: r).dropWhile (· != '$') = '$' :: r := by
      intro l hl r
      induction l with
      | nil => simp
      | cons c l ih =>
        have hc : c ≠ '$' := fun h' => hl (by simp [h'])
        simp only [List.cons_append]
        rw [List.dropWhile_cons_of_pos (by simpa using hc)]
        exact ih fun h' => hl (List.mem_cons_of_mem _ h')
    have hc : 2 ≤ ('$' :: (body ++ ['$'])).count '$' := by simp [List.count_append]
    rw [strip, if_pos hc]
    simp

/-- The text of a factor: a sign and the exponent -/
def signed (e : ℤ) : Label := (if e < 0 then '-' else '+') :: dec e.natAbs

/-- Under one and from one thousand on the label has a power of ten: its exponent is the order of the factor. -/
theorem C149_order {name body : Label} (hb : Named name body) (hd : ∀ c ∈ body.head?, c.isDigit = false) (hn : '\n' ∉ body) {x : ℚ} (hx : 0 < x) (h1 : x < 1 ∨ 1000 ≤ x) :
    ∃ e : ℤ, 19 / 20 * (10 : ℚ) ^ e ≤ x ∧ x ≤ 19 / 2 * (10 : ℚ) ^ e ∧
      format name x = some ("$10^{".toList ++ signed e ++ "}".toList ++ body ++ "$".toList) := by
  obtain ⟨_, _, h2, h3, _⟩ := mantExp_spec hx
  refine ⟨(mantExp x).2, h2, h3, ?_⟩
  have hr : ∀ c ∈ (body ++ ['$']).head?, c.isDigit = false := by
    cases body with
    | nil => intro c hc; simp at hc; subst hc; rfl
    | cons b body => intro c hc; exact hd c (by simpa using hc)
  have hr2 : '\n' ∉ body ++ ['$'] := by
    simp only [List.mem_append, List.mem_singleton, not_or]
    exact ⟨hn, by decide⟩
  have hne : x ≠ 1 := by rcases h1 with h1 | h1 <;> [exact h1.ne; exact fun h => by linarith]
  have hno : ¬ (x < 1000 ∧ 1 < x) := by rintro ⟨h4, h5⟩; rcases h1 with h1 | h1 <;> linarith
  have hsci : sci x ++ (strip name ++ ['$']) = dec (mantExp x).1 ++ 'e' :: (if (mantExp x).2 < 0 then '-' else '+') :: (expText (mantExp x).2.natAbs ++ (body ++ ['$'])) := by
    rw [sci, if_neg hx.ne', if_neg (not_lt.2 hx.le), abs_of_pos hx, strip_named hb]
    simp
  rw [format, if_neg hne, if_neg hno, hsci]
  have hm := fun s sign => matchAt_sci (m := (mantExp x).1) (e := (mantExp x).2.natAbs) (s := s) (sign := sign) hr hr2
  by_cases hs : (mantExp x).2 < 0
  · rw [if_pos hs]
    have hplus : search '+' ('$' :: (dec (mantExp x).1 ++ 'e' :: '-' :: (expText (mantExp x).2.natAbs ++ (body ++ ['$'])))) = none := by
      rw [search, hm]
      simp only [show ('-' : Char) ≠ '+' by decide, if_false]
      have : dec (mantExp x).1 ++ 'e' :: '-' :: (expText (mantExp x).2.natAbs ++ (body ++ ['$'])) = (dec (mantExp x).1 ++ 'e' :: '-' :: (expText (mantExp x).2.natAbs ++ body)) ++ ['$'] := by simp
      rw [this]
      refine search_none ?_
      simp only [List.mem_append, List.mem_cons, not_or]
      exact ⟨dec_dollar _, by decide, by decide, expText_dollar _, hb.1⟩
    rw [hplus]
    simp only [search, hm, if_true]
    simp [power, signed, hs]
  · rw [if_neg hs]
    simp only [search, hm, if_true]
    simp [power, signed, hs]

theorem zpow_unique {e f : ℤ} (h1 : 19 / 20 * (10 : ℚ) ^ e ≤ (10 : ℚ) ^ f) (h2 : (10 : ℚ) ^ f ≤ 19 / 2 * (10 : ℚ) ^ e) : e = f := by
  have hp : ∀ k : ℤ, (0 : ℚ) < (10 : ℚ) ^ k := fun k => zpow_pos (by norm_num) k
  have hs : ∀ k : ℤ, (10 : ℚ) ^ (k + 1) = 10 * (10 : ℚ) ^ k := fun k => by
    rw [zpow_add₀ (by norm_num), zpow_one]
    ring
  rcases lt_trichotomy e f with h | h | h
  · have := zpow_le_zpow_right₀ (a := (10 : ℚ)) (by norm_num) (show e + 1 ≤ f by omega)
    rw [hs] at this
    have := hp e
    linarith
  · exact h
  · have := zpow_le_zpow_right₀ (a := (10 : ℚ)) (by norm_num) (show f + 1 ≤ e by omega)
    rw [hs] at this
    have := hp f
    linarith

/-- The label of a factor that is a power of ten (not 10 or 100, which are integers below 1000) names it. -/
theorem C149_power {name body : Label} (hb : Named name body) (hd : ∀ c ∈ body.head?, c.isDigit = false) (hn : '\n' ∉ body) {e : ℤ} (he : e < 0 ∨ 3 ≤ e) :
    format name ((10 : ℚ) ^ e) = some ("$10^{".toList ++ signed e ++ "}".toList ++ body ++ "$".toList) := by
  have h1 : (10 : ℚ) ^ e < 1 ∨ 1000 ≤ (10 : ℚ) ^ e := by
    rcases he with he | he
    · left
      have := zpow_lt_zpow_right₀ (a := (10 : ℚ)) (by norm_num) he
      simpa using this
    · right
      have := zpow_le_zpow_right₀ (a := (10 : ℚ)) (by norm_num) he
      norm_num at this
      exact this
  obtain ⟨f, h2, h3, h4⟩ := C149_order hb hd hn (zpow_pos (by norm_num) e) h1
  rw [zpow_unique h2 h3] at h4
  exact h4

/-- The label of an integer factor below 1000 names it, and the factor one changes nothing. -/
theorem C149_integer {name body : Label} (hb : Named name body) {n : ℕ} (h1 : 1 < n) (h2 : n < 1000) :
    format name n = some ("$".toList ++ dec n ++ "~".toList ++ body ++ "$".toList) ∧ format name 1 = some name := by
  have h3 : (n : ℚ) ≠ 1 := by exact_mod_cast h1.ne'
  have h4 : (n : ℚ) < 1000 ∧ 1 < (n : ℚ) := ⟨by exact_mod_cast h2, by exact_mod_cast h1⟩
  refine ⟨?_, by simp [format]⟩
  rw [format, if_neg h3, if_pos h4, strip_named hb, Nat.floor_natCast]
  simp

/-- The decimals of a number: its digits, without zeros in front. -/
theorem C149_decimals (n : ℕ) : (dec n).foldl (fun a c => 10 * a + (c.toNat - 48)) 0 = n ∧ (∀ c ∈ dec n, c.isDigit = true) ∧ (dec n).head? ≠ some '0' := by
  refine ⟨?_, dec_isDigit, ?_⟩
  · have key : ∀ l : List ℕ, (∀ d ∈ l, d < 10) → (l.reverse.map Nat.digitChar).foldl (fun a c => 10 * a + (c.toNat - 48)) 0 = Nat.ofDigits 10 l := by
      intro l hl
      induction l with
      | nil => rfl
      | cons d l ih =>
        have hd : (Nat.digitChar d).toNat - 48 = d := by
          have := hl d (by simp)
          interval_cases d <;> rfl
        rw [List.reverse_cons, List.map_append, List.foldl_append, ih fun x hx => hl x (List.mem_cons_of_mem _ hx)]
        simp only [List.map_cons, List.map_nil, List.foldl_cons, List.foldl_nil, hd, Nat.ofDigits_cons]
        omega
    rw [dec, key _ fun d hd => Nat.digits_lt_base (by norm_num) hd, Nat.ofDigits_digits]
  · by_cases hn : n = 0
    · subst hn; simp [dec]
    · obtain ⟨c, l, h, hc⟩ := dec_cons hn
      rw [h]
      simpa using hc

/-! ### Where it fails -/

theorem order_unique {e f : ℤ} {x : ℚ} (h1 : 19 / 20 * (10 : ℚ) ^ e ≤ x) (h2 : x ≤ 19 / 2 * (10 : ℚ) ^ e) (h3 : 19 / 20 * (10 : ℚ) ^ f < x) (h4 : x < 19 / 2 * (10 : ℚ) ^ f) : e = f := by
  have hs : ∀ k : ℤ, (10 : ℚ) ^ (k + 1) = 10 * (10 : ℚ) ^ k := fun k => by
    rw [zpow_add₀ (by norm_num), zpow_one]
    ring
  rcases lt_trichotomy e f with h | h | h
  · have := zpow_le_zpow_right₀ (a := (10 : ℚ)) (by norm_num) (show e + 1 ≤ f by omega)
    rw [hs] at this
    linarith
  · exact h
  · have := zpow_le_zpow_right₀ (a := (10 : ℚ)) (by norm_num) (show f + 1 ≤ e by omega)
    rw [hs] at this
    linarith

/-- A half has the label of a tenth, 2000 that of 1000, 2.5 that of 2, 0.96 an empty exponent; a label whose name begins with a digit has another exponent; a negative factor raises an
`AttributeError`. -/
theorem C149_label_counterexample :
    format "$f$".toList (1 / 2) = format "$f$".toList ((10 : ℚ) ^ (-1 : ℤ)) ∧ format "$f$".toList 2000 = format "$f$".toList ((10 : ℚ) ^ (3 : ℤ)) ∧
    format "$f$".toList (5 / 2) = format "$f$".toList (2 : ℕ) ∧ format "$f$".toList (24 / 25) = some "$10^{+}f$".toList ∧
    format "$2h$".toList ((10 : ℚ) ^ (3 : ℤ)) = format "$h$".toList ((10 : ℚ) ^ (32 : ℤ)) ∧ ∀ x : ℚ, x < 0 → format "$f$".toList x = none := by
  have hf : Named "$f$".toList "f".toList := ⟨by decide, Or.inr (by decide)⟩
  have hh : Named "$h$".toList "h".toList := ⟨by decide, Or.inr (by decide)⟩
  have hd : ∀ c ∈ "f".toList.head?, c.isDigit = false := by decide
  have hn : '\n' ∉ "f".toList := by decide
  refine ⟨?_, ?_, ?_, ?_, ?_, fun x hx => ?_⟩
  · obtain ⟨e, h1, h2, h3⟩ := C149_order hf hd hn (x := 1 / 2) (by norm_num) (Or.inl (by norm_num))
    have : e = -1 := order_unique h1 h2 (by norm_num) (by norm_num)
    rw [h3, this, C149_power hf hd hn (Or.inl (by norm_num))]
  · obtain ⟨e, h1, h2, h3⟩ := C149_order hf hd hn (x := 2000) (by norm_num) (Or.inr (by norm_num))
    have : e = 3 := order_unique h1 h2 (by norm_num) (by norm_num)
    rw [h3, this, C149_power hf hd hn (Or.inr (by norm_num))]
  · rw [(C149_integer hf (n := 2) (by norm_num) (by norm_num)).1, format, if_neg (by norm_num), if_pos (by norm_num), strip_named hf]
    have : ⌊(5 / 2 : ℚ)⌋₊ = 2 := by rw [Nat.floor_eq_iff (by norm_num)]; norm_num
    rw [this]
    simp
  · obtain ⟨e, h1, h2, h3⟩ := C149_order hf hd hn (x := 24 / 25) (by norm_num) (Or.inl (by norm_num))
    have : e = 0 := order_unique h1 h2 (by norm_num) (by norm_num)
    rw [h3, this]
    simp [signed, dec]
  · rw [C149_power hh (by decide) (by decide) (Or.inr (by norm_num))]
    have hx : (0 : ℚ) < (10 : ℚ) ^ (3 : ℤ) := by norm_num
    obtain ⟨h0, _, h1, h2, h3, h4⟩ := mantExp_spec hx
    have he : (mantExp ((10 : ℚ) ^ (3 : ℤ))).2 = 3 := order_unique h1 h2 (by norm_num) (by norm_num)
    rw [he] at h3
    have hm : (mantExp ((10 : ℚ) ^ (3 : ℤ))).1 = 1 := by
      clear h1 h2 h4 he
      generalize (mantExp ((10 : ℚ) ^ (3 : ℤ))).1 = m at *
      by_contra hc
      have : (2 : ℚ) ≤ m := by exact_mod_cast (by omega : 2 ≤ m)
      norm_num at h3
      linarith
    have hsci : sci ((10 : ℚ) ^ (3 : ℤ)) = "1e+03".toList := by
      rw [sci, if_neg hx.ne', if_neg (not_lt.2 hx.le), abs_of_pos hx, he, hm]
      simp [dec, expText]
    have hst : strip "$2h$".toList = "2h".toList := strip_named ⟨by decide, Or.inr (by decide)⟩
    rw [format, if_neg (by norm_num), if_neg (by norm_num), hsci, hst]
    have hs : search '+' ('$' :: ("1e+03".toList ++ ("2h".toList ++ ['$']))) = some ("32".toList, "h$".toList) := by decide
    rw [hs]
    have hdec : dec 32 = "32".toList := by simp [dec]
    simp [power, signed, hdec]
  · have hs : ∀ sign, search sign ('$' :: (sci x ++ (strip "$f$".toList ++ ['$']))) = none := by
      intro sign
      rw [strip_named hf, sci, if_neg hx.ne, if_pos hx]
      simp only [List.cons_append, List.nil_append]
      rw [search]
      have h1 : ∀ r, matchAt sign ('$' :: '-' :: r) = none := fun r => by simp [matchAt]
      rw [h1]
      have h2 : ∀ l : Label, '$' ∉ l → search sign ('-' :: (l ++ ("f".toList ++ ['$']))) = none := by
        intro l hl
        have := search_none (sign := sign) (l := '-' :: (l ++ "f".toList)) (by
          simp only [List.mem_cons, List.mem_append, not_or]
          exact ⟨by decide, hl, by decide⟩)
        simpa using this
      refine h2 _ ?_
      simp only [List.mem_append, List.mem_cons, not_or]
      refine ⟨dec_dollar _, by decide, ?_, expText_dollar _⟩
      split_ifs <;> decide
    rw [format, if_neg (by linarith), if_neg (by rintro ⟨_, h⟩; linarith), hs, hs]

end Verif.PlotNames
