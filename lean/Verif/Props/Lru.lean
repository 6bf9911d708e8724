import Verif.Lemmas.LruRun
/-
Property C07: the least-recently-used cache (`pyRSD/extern/backports/lru_cache.py`).
-/
set_option linter.unusedSectionVars false
namespace Verif.Lru
variable {K V E : Type} [DecidableEq K]

/-- `m` stores exactly the entries `l`, oldest first, as read by following the `NEXT` pointers from the root. -/
def Holds (m : Mem K V) (l : List (K × V)) : Prop :=
  walk m.heap m.cache.length (m.heap m.root).next = l.map (fun e => (some e.1, some e.2))

/-- **C07 (every schedule).**  Let threads (or recursive calls) interleave arbitrarily: `evs` is any sequence of the
locked sections, in which every second section stores what `f` returned for its key.  Then no section crashes; every
hit returns exactly what `f` returns for the key and every second section returns the value just computed; the number
of stored results never exceeds `maxsize`; and, if the cache is not cleared, `hits + misses` is the number of calls that
have returned. -/
theorem C07_any_schedule (n : Nat) (hn : 0 < n) (f : K → Except E V) (evs : List (Ev K V))
    (hf : ∀ k v, Ev.stored k v ∈ evs → f k = .ok v) :
    ∃ outs m, runEv n (Mem.init : Mem K V) evs = some (outs, m) ∧ outs.length = evs.length ∧ m.cache.length ≤ n ∧
      (∀ k v, (Ev.look k, some v) ∈ evs.zip outs → f k = .ok v) ∧
      (∀ k w r, (Ev.stored k w, r) ∈ evs.zip outs → r = some w) ∧
      ((∀ e ∈ evs, e ≠ .clear) → m.hits + m.misses = (outs.filter Option.isSome).length) := by
  obtain ⟨rs, m, t, hm, hr, hlen, hv, h1, h2, h3, h4⟩ := runEv_rep hn f evs Mem.init [] rep_init (by simp)
    (by simp [contents]) hf
  refine ⟨rs, m, hm, h1, ?_, h2, h3, fun h => by rw [h4 h]; simp [Mem.init]⟩
  have : m.cache.length = t.length := by simpa using hr.dict.length_eq
  omega

/-- **C07 (sequential calls).**  For every function, every `maxsize > 0` and every call history: the wrapper never
crashes and returns, call by call, exactly what the bare function returns (a value or its exception). -/
theorem C07_calls_transparent (n : Nat) (hn : 0 < n) (f : K → Except E V) (ks : List K) :
    ∃ m, calls n f (Mem.init : Mem K V) ks = some (ks.map (fun k => (f k).map some), m) := by
  obtain ⟨m, t, h, _⟩ := calls_rep hn f ks Mem.init [] rep_init (by simp) (by simp [contents]) [] (by simp [contents, recentKeys])
  exact ⟨m, h⟩

/-- The keys of the successful calls of a history, most recent first. -/
def okHistory (f : K → Except E V) (ks : List K) : List K :=
  (ks.filter (isOk f)).reverse

/-- **C07 (what is kept).**  After any history of calls, the stored keys, most recently used first, are exactly the
first `maxsize` distinct keys of the history of successful calls read backwards; `hits + misses` is the number of
successful calls; and what is stored is what `f` returns. -/
theorem C07_keeps_most_recent (n : Nat) (hn : 0 < n) (f : K → Except E V) (ks : List K) :
    ∃ rs m l, calls n f (Mem.init : Mem K V) ks = some (rs, m) ∧ Holds m l ∧
      (l.map (·.1)).reverse = (recentKeys (okHistory f ks)).take n ∧
      (∀ e ∈ l, f e.1 = .ok e.2) ∧
      m.hits + m.misses = (okHistory f ks).length ∧
      (∀ k, (look m k).1 = none ↔ k ∉ l.map (·.1)) := by
  obtain ⟨m, t, h, hr, _, hv, hk, hc⟩ := calls_rep hn f ks Mem.init [] rep_init (by simp) (by simp [contents]) []
    (by simp [contents, recentKeys])
  refine ⟨_, m, contents t, h, walk_rep hr, ?_, hv, ?_, ?_⟩
  · rw [hk]; simp [okHistory]
  · rw [hc]; simp [okHistory, Mem.init]
  · intro k
    rcases look_rep hr k with ⟨h1, h2⟩ | ⟨v, m', t', h2, _, hmem, _⟩
    · rw [h2]
      simp only [true_iff]
      intro hm
      obtain ⟨e, he, rfl⟩ := List.mem_map.1 hm
      obtain ⟨c, hc, rfl⟩ := List.mem_map.1 he
      exact rep_lookup_none hr h1 c hc rfl
    · rw [h2]
      simp only [reduceCtorEq, false_iff, Classical.not_not]
      exact List.mem_map.2 ⟨(k, v), hmem, rfl⟩

/-- **C07 (re-call is a hit).**  A further call with a key that is among the last `maxsize` distinct successful keys
increments `hits` and leaves `misses` unchanged, i.e. does not evaluate the function; and conversely. -/
theorem C07_recall_is_hit (n : Nat) (hn : 0 < n) (f : K → Except E V) (ks : List K) (k : K) :
    ∃ rs m, calls n f (Mem.init : Mem K V) ks = some (rs, m) ∧
      ((look m k).1.isSome = true ↔ k ∈ (recentKeys (okHistory f ks)).take n) ∧
      ((look m k).1.isSome = true → (look m k).2.hits = m.hits + 1 ∧ (look m k).2.misses = m.misses) ∧
      ((look m k).1.isSome = false → (look m k).2.hits = m.hits ∧ (look m k).2.misses = m.misses) := by
  obtain ⟨rs, m, l, h, _, hk, _, _, hlook⟩ := C07_keeps_most_recent n hn f ks
  refine ⟨rs, m, h, ?_, ?_, ?_⟩
  rotate_left
  · unfold look; cases m.cache.lookup k <;> simp
  · unfold look; cases m.cache.lookup k <;> simp
  rw [← hk, List.mem_reverse]
  have := hlook k
  cases hl : (look m k).1 with
  | none => simpa using this.1 hl
  | some r =>
    rw [hl] at this
    simp only [reduceCtorEq, false_iff, Classical.not_not] at this
    simpa using this

/-- **C07 (unlimited cache).**  For every history, results are those of `f`, nothing is ever evicted, and
hits + misses counts the successful calls. -/
theorem C07_unlimited (f : K → Except E V) (ks : List K) (m₀ : Simple K V)
    (h₀ : ∀ k v, m₀.cache.lookup k = some v → f k = .ok v) :
    let res := ks.foldl (fun (acc : List (Except E V) × Simple K V) k =>
      ((acc.1 ++ [(callUnlimited f acc.2 k).1]), (callUnlimited f acc.2 k).2)) ([], m₀)
    res.1 = ks.map f ∧
    res.2.hits + res.2.misses = m₀.hits + m₀.misses +
      (ks.filter (isOk f)).length ∧
    (∀ k v, m₀.cache.lookup k = some v → res.2.cache.lookup k = some v) :=
  unlimited_run f ks m₀ h₀

/-- **C07 (maxsize = 0).** -/
theorem C07_zero (f : K → Except E V) (m : Simple K V) (k : K) :
    (callZero f m k).1 = f k ∧ (callZero f m k).2.cache = m.cache ∧ (callZero f m k).2.hits = m.hits ∧
      (callZero f m k).2.misses = m.misses + if isOk f k then 1 else 0 := by
  unfold callZero isOk
  cases f k <;> simp

/-- Non-vacuity: a history with hits, evictions and a failing call, maxsize 2. -/
def demoF : Nat → Except String Nat := fun k => if k = 9 then .error "x" else .ok (k * k)
example : ((calls 2 demoF (Mem.init : Mem Nat Nat) [1, 2, 1, 3, 9, 2, 1]).map (fun r => (r.2.hits, r.2.misses,
    r.2.cache.map Prod.fst))) = some (1, 5, [1, 2]) := by decide
example : (recentKeys (okHistory demoF [1, 2, 1, 3, 9, 2, 1])).take 2 = [1, 2] := by decide
example : (runEv 1 (Mem.init : Mem Nat Nat) [.look 3, .look 3, .stored 3 9, .stored 3 9, .look 3, .clear, .look 4,
    .stored 4 16]).map (fun m => (m.1, m.2.hits, m.2.misses)) =
    some ([none, none, some 9, some 9, some 9, none, none, some 16], 0, 1) := by decide

end Verif.Lru
