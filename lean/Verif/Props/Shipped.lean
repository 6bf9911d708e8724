import Verif.Model.ShippedTables
import Verif.Lemmas.ShippedWitness
/-
C09: which cached attributes of the shipped models can go stale.

The tables of `Model/ShippedTables.lean` (generated from the source) say what every cached attribute declares and what
the code computing it can read.  `exceptions K (certOf cls) n` are the parameters that some cached attribute evaluated
when reading `n` may read without declaring (transitively) that it depends on them.
-/
set_option linter.unusedSectionVars false
set_option linter.unusedSimpArgs false
set_option maxRecDepth 100000
namespace Verif.Shipped
open Verif.Cache

/-- The five tables are well formed and their certificates are right. -/
theorem check_ok (cls : Cls) : check (mroOf cls) K (certOf cls) = true := by
  cases cls
  · decide +kernel
  · decide +kernel
  · decide +kernel
  · decide +kernel
  · decide +kernel

theorem rankOf_lt_fuel {F : Nat} (hF : K ≤ F) (n : Nat) : rankOf K n < F := by
  have h0 : 0 < K := by decide
  unfold rankOf
  split <;> omega

theorem not_mem_exceptions {M : List Table} {c : Cert} (hc : check M K c = true) {n p : Nat}
    (hp : ∃ r, rowOf M p = some r) (h : p ∉ exceptions K c n) : (at' c.bad n).testBit p = false := by
  obtain ⟨r, hr⟩ := hp
  have hlt := (rowOk_of_check hc hr).lt
  by_contra hb
  exact h (List.mem_filter.2 ⟨List.mem_range.2 hlt, by simpa using hb⟩)

/-- **C09.**  For each of the shipped models, for *any* code that computes its attributes from (at most) the attributes
listed in the tables, any validation in the setters, any parameter values and any history of assignments, reads and
deletions of cached attributes (each possibly failing): an attribute `n` reads as on a brand-new object with the same
parameter values, provided that none of the parameters listed as exceptions for `n` was assigned. -/
theorem C09_shipped_partial (cls : Cls) {V : Type} (impl : Impl V) (himpl : impl.Respects (mroOf cls))
    (extra : Nat → List Nat) (eqv : V → V → Bool) (F : Nat) (hF : K ≤ F) (π : Nat → Option V) (ops : List (Op Nat V))
    (hdel : ∀ o ∈ ops, ∀ p, o ≠ .delParam p) (n : Nat)
    (hset : ∀ p x, Op.set p x ∈ ops → p ∉ exceptions K (certOf cls) n) :
    ReadsFresh (schema (mroOf cls) impl extra eqv) F
      (run (schema (mroOf cls) impl extra eqv) F (State.fresh π) ops) n := by
  have hc := check_ok cls
  refine readsFresh_of_safe (rd := readsOf (mroOf cls)) (shape_of_check hc) ?_ (fun n m hs => readStep_rank hc hs)
    (fun n => reads_exist hc n) (rankOf_lt_fuel hF) n π ops hdel ?_
  · intro m ps b i hl
    rw [lookup_schema] at hl
    cases hr : rowOf (mroOf cls) m with
    | none => rw [hr] at hl; cases hl
    | some r =>
      rw [hr] at hl
      have hb := himpl m r hr
      have : readsOf (mroOf cls) m = r.reads := by unfold readsOf; rw [hr]
      rw [this]
      obtain ⟨k, rd⟩ := r
      cases k with
      | param d => cases d <;> simp [Row.attr] at hl
      | cached qs j =>
        simp only [Option.map_some, Row.attr, Option.some.injEq, Attr.cached.injEq] at hl
        rw [← hl.2.1]; exact hb
  · intro p x hx hp
    obtain ⟨d, rd, hr⟩ := isParam_iff.1 hp
    exact safe_of_not_bad hc hp (not_mem_exceptions hc ⟨_, hr⟩ (hset p x hx))

/-- **C09, exactness.**  The exception lists cannot be shortened: parameter `p` is listed for `n` exactly if some code
computing the attributes from what the tables allow goes stale at `n` in some history that assigns nothing but `p`. -/
theorem C09_exceptions_exact (cls : Cls) (F : Nat) (hF : K ≤ F) (n p : Nat)
    (hn : ∃ r, rowOf (mroOf cls) n = some r) :
    p ∈ exceptions K (certOf cls) n ↔
    ∃ (impl : Impl Nat) (π : Nat → Option Nat) (ops : List (Op Nat Nat)), impl.Respects (mroOf cls) ∧
      (∀ o ∈ ops, ∀ q, o ≠ .delParam q) ∧ (∀ q x, Op.set q x ∈ ops → q = p) ∧
      ¬ ReadsFresh (schema (mroOf cls) impl (fun _ => []) (fun a b => a == b)) F
        (run (schema (mroOf cls) impl (fun _ => []) (fun a b => a == b)) F (State.fresh π) ops) n := by
  have hc := check_ok cls
  constructor
  · intro hp
    have hb : (at' (certOf cls).bad n).testBit p = true := (List.mem_filter.1 hp).2
    obtain ⟨m, h1, h2, h3, h4, h5⟩ := bad_iff hc (ex := fun _ => []) (eqv := fun a b => a == b) (n + 1)
      (by omega) hn hb
    refine ⟨worst (mroOf cls), fun _ => none, [.get m, .set p 1], worst_respects _, ?_, ?_,
      worst_stale hc hF hn h1 h2 h3 h4 h5 (by simp)⟩
    · intro o ho q hq
      subst hq
      simp at ho
    · intro q x hq
      simp only [List.mem_cons, Op.set.injEq, List.not_mem_nil, or_false] at hq
      rcases hq with hq | hq
      · cases hq
      · exact hq.1
  · rintro ⟨impl, π, ops, hi, hd, hs, hst⟩
    by_contra hp
    exact hst (C09_shipped_partial cls impl hi _ _ F hF π ops hd n (fun q x hq => by rw [hs q x hq]; exact hp))

/-! ### the exceptions, spelled out -/

/-- All attributes with exceptions, with their exceptions. -/
def exceptionTable (cls : Cls) : List (Nat × List Nat) :=
  ((List.range K).map (fun n => (n, exceptions K (certOf cls) n))).filter (fun e => !e.2.isEmpty)

/-- The dark-matter model: `interpolate` is read by the power terms that use the Jennings or HZPT models
(`power_dm.py`, `P00`, `P01`, `P11`, `Pdv`, `Pvv`) but declared by nobody, and loading other simulation data while some
is loaded is not noticed.  Every other parameter is safe for every attribute. -/
theorem C09_exceptions_dm : exceptionTable .DarkMatterSpectrum =
    [(A.P00, [A.loaded_data_, A.interpolate]), (A.P01, [A.loaded_data_, A.interpolate]),
     (A.Pdv, [A.loaded_data_, A.interpolate]), (A.P02, [A.loaded_data_, A.interpolate]),
     (A.P03, [A.loaded_data_, A.interpolate]), (A.P04, [A.loaded_data_, A.interpolate]),
     (A.P11, [A.loaded_data_, A.interpolate]), (A.Pvv, [A.interpolate]), (A.P12, [A.loaded_data_, A.interpolate]),
     (A.P13, [A.loaded_data_, A.interpolate]), (A.P22, [A.loaded_data_, A.interpolate]),
     (A.P_mu0, [A.loaded_data_, A.interpolate]), (A.P_mu2, [A.loaded_data_, A.interpolate]),
     (A.P_mu4, [A.loaded_data_, A.interpolate]), (A.P_mu6, [A.loaded_data_, A.interpolate])] := by decide +kernel

/-- The biased, halo and galaxy models: in addition `use_tidal_bias` is not declared by the halo-matter terms, the
coefficients of the `00_a`/`01_a` nonlinear biases are not declared by the biases computed from them, and
`bias_to_sigma_relation` declares nothing. -/
theorem C09_exceptions_biased (cls : Cls)
    (hcls : cls = .BiasedSpectrum ∨ cls = .HaloSpectrum ∨ cls = .GalaxySpectrum) : exceptionTable cls =
    [(A.P00, [A.loaded_data_, A.interpolate]), (A.Phm, [A.loaded_data_, A.interpolate, A.use_tidal_bias]),
     (A.Phm_bar, [A.loaded_data_, A.interpolate, A.use_tidal_bias]),
     (A.P00_ss_no_stoch, [A.loaded_data_, A.interpolate, A.use_tidal_bias]),
     (A.P00_ss, [A.loaded_data_, A.interpolate, A.use_tidal_bias]), (A.P01, [A.loaded_data_, A.interpolate]),
     (A.Pdv, [A.loaded_data_, A.interpolate]), (A.P01_ss, [A.loaded_data_, A.interpolate, A.use_tidal_bias]),
     (A.P02, [A.loaded_data_, A.interpolate]), (A.b2_00_b, [A.b2_00_a__0, A.b2_00_a__2, A.b2_00_a__4]),
     (A.b2_00_c, [A.b2_00_a__0, A.b2_00_a__2, A.b2_00_a__4]),
     (A.P02_ss, [A.loaded_data_, A.interpolate, A.b2_00_a__0, A.b2_00_a__2, A.b2_00_a__4, A.use_tidal_bias]),
     (A.P03, [A.loaded_data_, A.interpolate]), (A.b2_01_b, [A.b2_01_a__0, A.b2_01_a__1, A.b2_01_a__2]),
     (A.P03_ss, [A.loaded_data_, A.interpolate, A.use_tidal_bias, A.b2_01_a__0, A.b2_01_a__1, A.b2_01_a__2]),
     (A.P04, [A.loaded_data_, A.interpolate]), (A.b2_00_d, [A.b2_00_a__0, A.b2_00_a__2, A.b2_00_a__4]),
     (A.P04_ss, [A.loaded_data_, A.interpolate, A.b2_00_a__0, A.b2_00_a__2, A.b2_00_a__4, A.use_tidal_bias]),
     (A.P11, [A.loaded_data_, A.interpolate]), (A.Pvv, [A.interpolate]),
     (A.P11_ss, [A.loaded_data_, A.interpolate]), (A.P12, [A.loaded_data_, A.interpolate]),
     (A.P12_ss, [A.loaded_data_, A.interpolate, A.use_tidal_bias, A.b2_01_a__0, A.b2_01_a__1, A.b2_01_a__2]),
     (A.P13, [A.loaded_data_, A.interpolate]), (A.P13_ss, [A.loaded_data_, A.interpolate]),
     (A.P22, [A.loaded_data_, A.interpolate]),
     (A.P22_ss, [A.Nk, A.loaded_data_, A.interpolate, A.b2_00_a__0, A.b2_00_a__2, A.b2_00_a__4, A.use_tidal_bias, A.kmax, A.kmin]),
     (A.P_mu0, [A.loaded_data_, A.interpolate, A.use_tidal_bias]),
     (A.P_mu2, [A.loaded_data_, A.interpolate, A.b2_00_a__0, A.b2_00_a__2, A.b2_00_a__4, A.use_tidal_bias]),
     (A.P_mu4, [A.Nk, A.loaded_data_, A.interpolate, A.b2_00_a__0, A.b2_00_a__2, A.b2_00_a__4, A.use_tidal_bias, A.kmax, A.kmin, A.b2_01_a__0, A.b2_01_a__1, A.b2_01_a__2]),
     (A.P_mu6, [A.loaded_data_, A.interpolate, A.use_tidal_bias, A.b2_01_a__0, A.b2_01_a__1, A.b2_01_a__2]),
     (A.bias_to_sigma_relation, [A.linear_power_file, A.params, A.transfer_fit, A.interpolate])] := by
  rcases hcls with rfl | rfl | rfl <;> decide +kernel

/-- The quasar model: its total bias and its angular moments do not declare what `alpha_png` depends on (the cosmology
and the redshift), and `P_mu6` does not declare its own interpolation domain. -/
theorem C09_exceptions_qso : exceptionTable .QuasarSpectrum =
    [(A.P00, [A.loaded_data_, A.interpolate]), (A.Phm, [A.loaded_data_, A.interpolate, A.use_tidal_bias]),
     (A.Phm_bar, [A.loaded_data_, A.interpolate, A.use_tidal_bias]),
     (A.P00_ss_no_stoch, [A.loaded_data_, A.interpolate, A.use_tidal_bias]),
     (A.P00_ss, [A.loaded_data_, A.interpolate, A.use_tidal_bias]), (A.P01, [A.loaded_data_, A.interpolate]),
     (A.Pdv, [A.loaded_data_, A.interpolate]), (A.P01_ss, [A.loaded_data_, A.interpolate, A.use_tidal_bias]),
     (A.P02, [A.loaded_data_, A.interpolate]), (A.b2_00_b, [A.b2_00_a__0, A.b2_00_a__2, A.b2_00_a__4]),
     (A.b2_00_c, [A.b2_00_a__0, A.b2_00_a__2, A.b2_00_a__4]),
     (A.P02_ss, [A.loaded_data_, A.interpolate, A.b2_00_a__0, A.b2_00_a__2, A.b2_00_a__4, A.use_tidal_bias]),
     (A.P03, [A.loaded_data_, A.interpolate]), (A.b2_01_b, [A.b2_01_a__0, A.b2_01_a__1, A.b2_01_a__2]),
     (A.P03_ss, [A.loaded_data_, A.interpolate, A.use_tidal_bias, A.b2_01_a__0, A.b2_01_a__1, A.b2_01_a__2]),
     (A.P04, [A.loaded_data_, A.interpolate]), (A.b2_00_d, [A.b2_00_a__0, A.b2_00_a__2, A.b2_00_a__4]),
     (A.P04_ss, [A.loaded_data_, A.interpolate, A.b2_00_a__0, A.b2_00_a__2, A.b2_00_a__4, A.use_tidal_bias]),
     (A.P11, [A.loaded_data_, A.interpolate]), (A.Pvv, [A.interpolate]),
     (A.P11_ss, [A.loaded_data_, A.interpolate]), (A.P12, [A.loaded_data_, A.interpolate]),
     (A.P12_ss, [A.loaded_data_, A.interpolate, A.use_tidal_bias, A.b2_01_a__0, A.b2_01_a__1, A.b2_01_a__2]),
     (A.P13, [A.loaded_data_, A.interpolate]), (A.P13_ss, [A.loaded_data_, A.interpolate]),
     (A.P22, [A.loaded_data_, A.interpolate]),
     (A.P22_ss, [A.Nk, A.loaded_data_, A.interpolate, A.b2_00_a__0, A.b2_00_a__2, A.b2_00_a__4, A.use_tidal_bias, A.kmax, A.kmin]),
     (A.alpha_png, [A.sigma8_z]),
     (A.delta_bias, [A.linear_power_file, A.params, A.transfer_fit, A.z, A.sigma8_z]),
     (A.btot, [A.linear_power_file, A.params, A.transfer_fit, A.z, A.sigma8_z]),
     (A.P_mu0, [A.linear_power_file, A.params, A.transfer_fit, A.z, A.sigma8_z]),
     (A.P_mu2, [A.linear_power_file, A.params, A.transfer_fit, A.z, A.sigma8_z]),
     (A.P_mu6, [A.Nk, A.kmax, A.kmin]),
     (A.bias_to_sigma_relation, [A.linear_power_file, A.params, A.transfer_fit, A.interpolate])] := by decide +kernel

/-- an attribute that is not in the table has no exception -/
theorem mem_table {cls : Cls} {n p : Nat} (hp : p ∈ exceptions K (certOf cls) n) :
    (n, exceptions K (certOf cls) n) ∈ exceptionTable cls ∨ K ≤ n := by
  by_cases hn : n < K
  · left
    refine List.mem_filter.2 ⟨List.mem_map.2 ⟨n, List.mem_range.2 hn, rfl⟩, ?_⟩
    cases h : exceptions K (certOf cls) n with
    | nil => rw [h] at hp; cases hp
    | cons a l => rfl
  · exact Or.inr (Nat.le_of_not_lt hn)

/-- names beyond the tables have no exceptions -/
theorem no_exceptions_beyond (cls : Cls) {n : Nat} (hn : K ≤ n) : exceptions K (certOf cls) n = [] := by
  have hl : (certOf cls).bad.length ≤ K := by cases cls <;> decide +kernel
  have : at' (certOf cls).bad n = 0 := by
    unfold at'
    rw [List.getD_eq_getElem?_getD, List.getElem?_eq_none (by omega)]; rfl
  unfold exceptions
  rw [this]
  simp

/-- the parameters that occur in some exception list -/
theorem exceptions_sub (cls : Cls) (L : List Nat) (hL : (exceptionTable cls).all (fun e => e.2.all (fun p => L.contains p)) = true)
    (n p : Nat) (hp : p ∈ exceptions K (certOf cls) n) : p ∈ L := by
  rcases mem_table hp with h | h
  · simp only [List.all_eq_true] at hL
    have := hL _ h p hp
    simpa using this
  · rw [no_exceptions_beyond cls h] at hp; cases hp

/-- **C09 for fits with the galaxy model.**  Whatever the history, as long as it assigns none of `interpolate`,
`use_tidal_bias`, the six `b2_00_a`/`b2_01_a` coefficients, the three grid parameters and the three cosmology
parameters (and loads no simulation data), *every* attribute reads fresh: in particular all parameters a fit varies
(growth rate, `sigma8_z`, biases, fractions, velocity dispersions, AP factors, ...) may be changed freely. -/
theorem C09_galaxy_partial {V : Type} (impl : Impl V) (himpl : impl.Respects (mroOf .GalaxySpectrum))
    (extra : Nat → List Nat) (eqv : V → V → Bool) (F : Nat) (hF : K ≤ F) (π : Nat → Option V) (ops : List (Op Nat V))
    (hdel : ∀ o ∈ ops, ∀ p, o ≠ .delParam p)
    (hset : ∀ p x, Op.set p x ∈ ops → p ∉ [A.loaded_data_, A.interpolate, A.use_tidal_bias,
      A.b2_00_a__0, A.b2_00_a__2, A.b2_00_a__4, A.b2_01_a__0, A.b2_01_a__1, A.b2_01_a__2, A.Nk, A.kmin, A.kmax,
      A.linear_power_file, A.params, A.transfer_fit]) (n : Nat) :
    ReadsFresh (schema (mroOf .GalaxySpectrum) impl extra eqv) F
      (run (schema (mroOf .GalaxySpectrum) impl extra eqv) F (State.fresh π) ops) n := by
  refine C09_shipped_partial .GalaxySpectrum impl himpl extra eqv F hF π ops hdel n (fun p x hx hp => hset p x hx ?_)
  exact exceptions_sub .GalaxySpectrum _ (by decide +kernel) n p hp

/-- **C09 for the dark-matter model.**  Whatever is assigned other than `interpolate` (and no simulation data loaded),
every attribute reads fresh. -/
theorem C09_dm_partial {V : Type} (impl : Impl V) (himpl : impl.Respects (mroOf .DarkMatterSpectrum))
    (extra : Nat → List Nat) (eqv : V → V → Bool) (F : Nat) (hF : K ≤ F) (π : Nat → Option V) (ops : List (Op Nat V))
    (hdel : ∀ o ∈ ops, ∀ p, o ≠ .delParam p)
    (hset : ∀ p x, Op.set p x ∈ ops → p ∉ [A.loaded_data_, A.interpolate]) (n : Nat) :
    ReadsFresh (schema (mroOf .DarkMatterSpectrum) impl extra eqv) F
      (run (schema (mroOf .DarkMatterSpectrum) impl extra eqv) F (State.fresh π) ops) n := by
  refine C09_shipped_partial .DarkMatterSpectrum impl himpl extra eqv F hF π ops hdel n
    (fun p x hx hp => hset p x hx ?_)
  exact exceptions_sub .DarkMatterSpectrum _ (by decide +kernel) n p hp

/-! ### pairs that stay stale although the five classes share their descriptors -/

/-- An upper bound on the names that the other shipped classes put into the dependents of `p`: every attribute that
depends on `p` through declared parents in some shipped class. -/
def shared (p : Nat) : List Nat :=
  (List.range K).filter (fun m => [Cls.DarkMatterSpectrum, .BiasedSpectrum, .HaloSpectrum, .QuasarSpectrum,
    .GalaxySpectrum].any (fun c => (at' (certOf c).dc m).testBit p))

/-- What has to be looked up to see that reading `m`, assigning `p` and reading `n` gives a stale value. -/
def staleBits (cls : Cls) (n m p : Nat) : Bool :=
  (rowOf (mroOf cls) n).isSome && (at' (certOf cls).rc n).testBit m && (rowOf (mroOf cls) m).isSome &&
  !(certOf cls).params.testBit m && (at' (certOf cls).rc m).testBit p && (rowOf (mroOf cls) p).isSome &&
  (certOf cls).params.testBit p && !(at' (certOf cls).dc m).testBit p && !(shared p).contains m

theorem stale_of_bits (cls : Cls) (n m p : Nat) (hb : staleBits cls n m p = true) (F : Nat) (hF : K ≤ F) :
    ∃ impl : Impl Nat, impl.Respects (mroOf cls) ∧
      ¬ ReadsFresh (schema (mroOf cls) impl shared (fun a b => a == b)) F
        (run (schema (mroOf cls) impl shared (fun a b => a == b)) F (State.fresh (fun _ => none))
          [.get m, .set p 1]) n := by
  have hc := check_ok cls
  simp only [staleBits, Bool.and_eq_true, Bool.not_eq_true', Option.isSome_iff_exists] at hb
  obtain ⟨⟨⟨⟨⟨⟨⟨⟨hn, hnm⟩, hm⟩, hmp⟩, hrc⟩, hpe⟩, hp⟩, hdc⟩, hsh⟩ := hb
  obtain ⟨rm, hrm⟩ := hm
  obtain ⟨rp, hrp⟩ := hpe
  refine ⟨worst (mroOf cls), worst_respects _, worst_stale hc hF hn
    (mayRead_of_rc hc (n + 1) n (by omega) hn m hnm) ?_
    (mayRead_of_rc hc (m + 1) m (by omega) ⟨_, hrm⟩ p hrc)
    (isParam_iff.2 ((rowOk_of_check hc hrp).params.1 hp)) (fun hre => ?_) ?_⟩
  · obtain ⟨k, rd⟩ := rm
    cases k with
    | param d =>
      rw [(rowOk_of_check hc hrm).params.2 ⟨d, rd, hrm⟩] at hmp
      cases hmp
    | cached ps i => exact isCached_iff.2 ⟨ps, i, rd, hrm⟩
  · rw [dc_of_reach hc hre] at hdc; cases hdc
  · intro hmem
    rw [List.contains_iff_mem.2 hmem] at hsh
    cases hsh

/-- **C09, negative part.**  Concrete stale reads in the shipped models, with code that the tables allow and with all
five classes sharing their descriptors: the quasar total bias after a change of redshift or of the cosmology, the
quasar `P_mu2` likewise, the halo-matter spectrum and the biased `P_mu0` after a change of `use_tidal_bias`, the
dark-matter `P00`, `P_mu0` and `Pvv` after a change of `interpolate`, and `bias_to_sigma_relation` after a change of
cosmology.  (In each line: attribute read at the end, attribute read first, parameter assigned in between.) -/
theorem C09_stale_counterexample (e : Cls × Nat × Nat × Nat)
    (he : e ∈ [(Cls.QuasarSpectrum, A.btot, A.btot, A.z), (.QuasarSpectrum, A.btot, A.btot, A.params),
      (.QuasarSpectrum, A.delta_bias, A.delta_bias, A.z), (.QuasarSpectrum, A.P_mu0, A.btot, A.z),
      (.QuasarSpectrum, A.P_mu2, A.btot, A.z), (.GalaxySpectrum, A.Phm, A.Phm, A.use_tidal_bias),
      (.GalaxySpectrum, A.P_mu0, A.Phm, A.use_tidal_bias), (.HaloSpectrum, A.P_mu0, A.Phm, A.use_tidal_bias),
      (.DarkMatterSpectrum, A.P00, A.P00, A.interpolate), (.DarkMatterSpectrum, A.P_mu0, A.P00, A.interpolate),
      (.DarkMatterSpectrum, A.Pvv, A.Pvv, A.interpolate),
      (.GalaxySpectrum, A.b2_00_b, A.b2_00_b, A.b2_00_a__0), (.GalaxySpectrum, A.b2_01_b, A.b2_01_b, A.b2_01_a__0),
      (.GalaxySpectrum, A.bias_to_sigma_relation, A.bias_to_sigma_relation, A.params)])
    (F : Nat) (hF : K ≤ F) :
    ∃ impl : Impl Nat, impl.Respects (mroOf e.1) ∧
      ¬ ReadsFresh (schema (mroOf e.1) impl shared (fun a b => a == b)) F
        (run (schema (mroOf e.1) impl shared (fun a b => a == b)) F (State.fresh (fun _ => none))
          [.get e.2.2.1, .set e.2.2.2 1]) e.2.1 := by
  refine stale_of_bits e.1 e.2.1 e.2.2.1 e.2.2.2 ?_ F hF
  revert e
  decide +kernel

/-- The hypotheses of `C09_shipped_partial` are met by non-trivial code and histories: the code that sums everything it
may read, in a history that reads the galaxy `P_mu4`, changes the bias of the centrals' auto-term and the growth rate,
and reads it again. -/
example : (worst (mroOf .GalaxySpectrum)).Respects (mroOf .GalaxySpectrum) ∧
    (∀ o ∈ [Op.get A.P_mu4, .set A.f 1, .set A.b1 2, .get A.P_mu4], ∀ p, o ≠ (.delParam p : Op Nat Nat)) ∧
    (∀ p x, Op.set p x ∈ [Op.get A.P_mu4, .set A.f 1, .set A.b1 2, .get A.P_mu4] →
      p ∉ exceptions K (certOf .GalaxySpectrum) A.P_mu4) := by
  refine ⟨worst_respects _, ?_, ?_⟩
  · intro o ho p hp
    subst hp
    simp at ho
  intro p x h
  simp only [List.mem_cons, Op.set.injEq, List.not_mem_nil, or_false, reduceCtorEq, false_or] at h
  rcases h with ⟨rfl, _⟩ | ⟨rfl, _⟩ <;> decide +kernel

end Verif.Shipped
