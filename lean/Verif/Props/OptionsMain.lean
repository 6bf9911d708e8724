/-
C152: the options of a fit are those of its file, else the documented defaults, and the solvers use them.
-/
import Verif.Props.Options

namespace Verif.Opts

/-- what a process finds: the dictionaries of the class as they were made, and those of the file -/
structure Fresh (h : Heap) (file : String → Option Val) : Prop where
  cls : classHeap <+: h
  refs : ∀ s r, file s = some (.dict r) → r < h.length

theorem opt_mem (o : Opt) : o ∈ Opt.all := by cases o <;> decide

theorem name_inj {o p : Opt} (h : o.name = p.name) : o = p := by
  revert h; cases o <;> cases p <;> simp [Opt.name]

theorem fixStat_prefix (h : Heap) (file : String → Option Val) : h <+: (fixStat h file).2 := by
  unfold fixStat; split <;> simp

theorem fixStat_other (h : Heap) (file : String → Option Val) {s : String} (hs : s ≠ "stat_specific_params") : (fixStat h file).1 s = file s := by
  unfold fixStat; split <;> simp [hs]

theorem fixStat_name (h : Heap) (file : String → Option Val) {o : Opt} (ho : o ≠ .stat_specific_params) : (fixStat h file).1 o.name = file o.name :=
  fixStat_other h file (by cases o <;> simp [Opt.name] at ho ⊢)

theorem fixStat_refs {h : Heap} {file : String → Option Val} (hf : Fresh h file) (s : String) (r : ℕ) (hs : (fixStat h file).1 s = some (.dict r)) : r < (fixStat h file).2.length := by
  unfold fixStat at hs ⊢
  split
  · rename_i hn
    rw [if_pos hn] at hs
    dsimp only at hs ⊢
    by_cases he : s = "stat_specific_params"
    · rw [if_pos he] at hs
      simp only [Option.some.injEq, Val.dict.injEq] at hs
      simp [← hs]
    · rw [if_neg he] at hs
      have := hf.refs s r hs
      simp; omega
  · rename_i hn
    rw [if_neg hn] at hs
    exact hf.refs s r hs

/-- the attributes of a driver and its `params`, in terms of the file -/
structure Loaded (h : Heap) (file : String → Option Val) (d : Driver) (h' : Heap) : Prop where
  pre : h <+: h'
  unset : ∀ o, file o.name = none → d.attrs o = none
  set : ∀ o v, file o.name = some v → ∃ w, d.attrs o = some w ∧ Holds h h' o v w
  params : ∀ s, s ≠ "stat_specific_params" → d.params s = file s

/-- **C152** (what is accepted): a driver is made exactly if every option in the file has a value that is accepted for it, and every decorator is for a statistic of the data; whatever the order in which the options are gone through.
The driver then has, for every option in the file, its value (an empty dictionary if `None` stands for that) -/
theorem C152_accepted {h : Heap} {file : String → Option Val} (hf : Fresh h file) {order : List Opt} (hn : order.Nodup) (hall : ∀ o, o ∈ order) (stats : List String) :
    ((∃ d h', Driver.init h file order stats = .ok (d, h')) ↔
      (∀ o v, file o.name = some v → Acceptable h o v) ∧ ∀ r, file "theory_decorator" = some (.dict r) → ∀ p ∈ cell h r, p.1 ∈ stats) ∧
    ∀ d h', Driver.init h file order stats = .ok (d, h') → Loaded h file d h' := by
  have hpre := fixStat_prefix h file
  have hcls : classHeap <+: (fixStat h file).2 := hf.cls.trans hpre
  obtain ⟨good, bad⟩ := load_spec order (fixStat h file).2 ⟨fun _ => none, (fixStat h file).1⟩ hn hcls (fun s r hs => fixStat_refs hf s r hs) (fun _ _ => rfl)
  dsimp only at good bad
  have hacc : ∀ o, (∀ v, (fixStat h file).1 o.name = some v → Acceptable (fixStat h file).2 o v) ↔ ∀ v, file o.name = some v → Acceptable h o v := by
    intro o
    by_cases ho : o = .stat_specific_params
    · subst ho; simp [Acceptable]
    · rw [fixStat_name h file ho]
      exact forall₂_congr fun v hv => acceptable_prefix hpre fun r e => hf.refs _ r (e ▸ hv)
  by_cases ha : ∀ o v, file o.name = some v → Acceptable h o v
  · obtain ⟨d, h', e1, e2, e3, -, e5, e6⟩ := good fun o _ => (hacc o).2 (ha o)
    have hL : Loaded h file d h' := by
      refine ⟨hpre.trans e2, fun o ho => ?_, fun o v ho => ?_, fun s hs => by rw [e3]; exact fixStat_other h file hs⟩
      · refine e5 o (hall o) ?_
        by_cases hs : o = .stat_specific_params
        · subst hs
          unfold fixStat
          rw [if_neg (by rw [show "stat_specific_params" = Opt.name .stat_specific_params from rfl, ho]; simp)]
          exact ho
        · rw [fixStat_name h file hs]; exact ho
      · by_cases hs : o = .stat_specific_params
        · subst hs
          by_cases hv : v = .none
          · have hv' : file "stat_specific_params" = some .none := hv ▸ ho
            obtain ⟨w, hw, h1, -, -⟩ := e6 .stat_specific_params (hall _) (.dict h.length) (show (fixStat h file).1 "stat_specific_params" = some (.dict h.length) from by unfold fixStat; rw [if_pos hv']; dsimp only; rw [if_pos rfl])
            refine ⟨w, hw, fun hne => absurd hv hne, fun _ hne => absurd (Or.inr rfl) hne, fun _ _ => ⟨h.length, h1 (by simp), le_rfl, ?_⟩⟩
            obtain ⟨l, rfl⟩ := e2
            rw [show (fixStat h file).2 = h ++ [[]] by simp only [fixStat]; rw [if_pos hv'], List.append_assoc, List.getElem?_append_right le_rfl]
            simp
          · have hv' : file "stat_specific_params" ≠ some .none := by
              rw [show "stat_specific_params" = Opt.name .stat_specific_params from rfl, ho]; simpa using hv
            obtain ⟨w, hw, h1, -, -⟩ := e6 _ (hall _) v (by simp only [fixStat]; rw [if_neg hv']; exact ho)
            exact ⟨w, hw, h1, fun hh => absurd hh hv, fun hh => absurd hh hv⟩
        · obtain ⟨w, hw, h1, h2, h3⟩ := e6 o (hall o) v (by rw [fixStat_name h file hs]; exact ho)
          exact ⟨w, hw, h1, h2, fun hv hne => by obtain ⟨r, a, b, c⟩ := h3 hv hne; exact ⟨r, a, hpre.length_le.trans b, c⟩⟩
    have hcls' : classHeap <+: h' := hf.cls.trans hL.pre
    -- the decorators
    have hget : ∃ r, d.get h' .theory_decorator = .ok (.dict r, h') ∧ ((∀ p ∈ cell h' r, p.1 ∈ stats) ↔ ∀ r, file "theory_decorator" = some (.dict r) → ∀ p ∈ cell h r, p.1 ∈ stats) := by
      rcases hfile : file "theory_decorator" with _ | v
      · have := hL.unset .theory_decorator hfile
        refine ⟨0, by simp [Driver.get, this, dflt_valid hcls']; rfl, ?_⟩
        have hc0 : cell h' 0 = [] := by rw [cell_prefix hcls' (by decide)]; rfl
        simp [hc0]
      · obtain ⟨w, hw, h1, -, h3⟩ := hL.set .theory_decorator v hfile
        by_cases hv : v = .none
        · subst hv
          obtain ⟨r, rfl, -, hr⟩ := h3 rfl (Or.inl rfl)
          refine ⟨r, by simp [Driver.get, hw], ?_⟩
          have : cell h' r = [] := by simp [cell, List.getD_eq_getElem?_getD, hr]
          simp [this]
        · rcases ha .theory_decorator v hfile with rfl | ⟨r, rfl, -⟩
          · exact absurd rfl hv
          · refine ⟨r, by simp [Driver.get, hw, h1 (by simp)], ?_⟩
            rw [cell_prefix hL.pre (hf.refs _ r hfile)]
            constructor
            · intro hh r' e; simp at e; subst e; exact hh
            · intro hh; exact hh r rfl
    obtain ⟨r, hg, hiff⟩ := hget
    have hinit : Driver.init h file order stats = if ∀ p ∈ cell h' r, p.1 ∈ stats then .ok (d, h') else .error .keys := by
      simp only [Driver.init, e1, hg]
    refine ⟨⟨fun ⟨d2, h2, hok⟩ => ⟨ha, hiff.1 ?_⟩, fun ⟨_, hk⟩ => ⟨d, h', by rw [hinit, if_pos (hiff.2 hk)]⟩⟩, fun d2 h2 hok => ?_⟩
    · by_contra hc
      rw [hinit, if_neg hc] at hok
      simp at hok
    · rw [hinit] at hok
      split at hok
      · simp only [Except.ok.injEq, Prod.mk.injEq] at hok
        obtain ⟨rfl, rfl⟩ := hok
        exact hL
      · simp at hok
  · have hb : ∃ e, Driver.load (fixStat h file).2 ⟨fun _ => none, (fixStat h file).1⟩ order = .error e := by
      refine bad ?_
      push Not at ha
      obtain ⟨o, v, hv, hna⟩ := ha
      have := (not_congr (hacc o)).2 fun hh => hna (hh v hv)
      push Not at this
      exact ⟨o, hall o, this⟩
    obtain ⟨e, he⟩ := hb
    have hinit : Driver.init h file order stats = .error e := by simp only [Driver.init, he]
    refine ⟨⟨fun ⟨d2, h2, hok⟩ => ?_, fun ⟨hh, _⟩ => absurd hh ha⟩, fun d2 h2 hok => ?_⟩ <;> · rw [hinit] at hok; simp at hok

/-- **C152** (defaults): the defaults are those of the documentation -/
theorem C152_defaults (h : Heap) (hc : classHeap <+: h) :
    [Opt.tracer_type, .burnin, .epsilon, .init_from, .init_scatter, .lbfgs_epsilon, .lbfgs_use_priors, .lbfgs_numerical, .lbfgs_numerical_from_lnlike, .start_from, .test_convergence].map Opt.dflt =
      [.str "galaxy", .num 0, .num 0.02, .str "fiducial", .num 0, .num 1e-4, .bool true, .bool false, .bool false, .none, .bool false] ∧
    ∃ a b c, Opt.dflt .theory_decorator = .dict a ∧ cell h a = [] ∧ Opt.dflt .stat_specific_params = .dict b ∧ cell h b = [] ∧
      Opt.dflt .lbfgs_options = .dict c ∧ cell h c = [("factr", .num 1e5), ("gtol", .num 1e-5)] := by
  refine ⟨by simp only [List.map_cons, List.map_nil, Opt.dflt]; norm_num, 0, 2, 1, rfl, ?_, rfl, ?_, rfl, ?_⟩
  all_goals rw [cell_prefix hc (by decide)]; simp only [cell, classHeap, List.getD_cons_zero, List.getD_cons_succ]
  norm_num

/-- **C152** (values): an option that is in the file has its value there, one that is not has the documented default -/
theorem C152_values {h : Heap} {file : String → Option Val} (hf : Fresh h file) {order : List Opt} (hn : order.Nodup) (hall : ∀ o, o ∈ order) {stats : List String} {d : Driver} {h' : Heap}
    (hd : Driver.init h file order stats = .ok (d, h')) (o : Opt) (ho : file o.name ≠ some .none ∨ ¬ NoneIsEmpty o) : d.get h' o = .ok ((file o.name).getD o.dflt, h') := by
  have hL := (C152_accepted hf hn hall stats).2 d h' hd
  rcases hfile : file o.name with _ | v
  · simp [Driver.get, hL.unset o hfile, dflt_valid (hf.cls.trans hL.pre)]
  · obtain ⟨w, hw, h1, h2, -⟩ := hL.set o v hfile
    have : w = v := by
      by_cases hv : v = .none
      · subst hv
        rcases ho with ho | ho
        · exact absurd hfile ho
        · exact h2 rfl ho
      · exact h1 hv
    simp [Driver.get, hw, this]

theorem look_put_self (d : List (String × Val)) (k : String) (v : Val) : look (put d k v) k = some v := by
  induction d with
  | nil => simp [put, look]
  | cons p d ih =>
    by_cases hp : p.1 = k
    · simp [put, look, hp]
    · simp [put, look, hp, ih]

theorem look_put_other (d : List (String × Val)) {k k' : String} (v : Val) (hk : k' ≠ k) : look (put d k v) k' = look d k' := by
  induction d with
  | nil => simp [put, look, hk.symm]
  | cons p d ih =>
    by_cases hp : p.1 = k
    · simp [put, look, hp, hk.symm]
    · simp [put, look, hp, ih]

theorem cell_store_self {h : Heap} {r : ℕ} (hr : r < h.length) (k : String) (v : Val) : cell (store h r k v) r = put (cell h r) k v := by
  simp [cell, store, List.getD_eq_getElem?_getD, hr]

theorem cell_store_other {h : Heap} {r r' : ℕ} (hr : r' ≠ r) (k : String) (v : Val) : cell (store h r k v) r' = cell h r' := by
  simp [cell, store, List.getD_eq_getElem?_getD, hr.symm]

theorem store_length (h : Heap) (r : ℕ) (k : String) (v : Val) : (store h r k v).length = h.length := by simp [store]

/-- **C152** (a run of `nlopt`): for a driver made from a file that says how to start and gives a dictionary of options for the minimiser: the number of iterations is the one given on the command line, the tolerances are those of the dictionary, else the documented `1e5` and `1e-5`;
the scatter, the step of derivatives, the three switches and the test of convergence are the values of the options of the driver -/
theorem C152_nlopt {h : Heap} {file : String → Option Val} (hf : Fresh h file) {order : List Opt} (hn : order.Nodup) (hall : ∀ o, o ∈ order) {stats : List String} {d : Driver} {h' : Heap}
    (hd : Driver.init h file order stats = .ok (d, h')) {i : Val} (hi : file "init_from" = some i) {r : ℕ} (hr : file "lbfgs_options" = some (.dict r)) (iterations : ℕ) :
    ∃ h2 u h3, setupNlopt h' d.params iterations = .ok h2 ∧ nloptReads h2 d.params = .ok (u, h3) ∧ u.maxIter = .num iterations ∧
      u.factr = (look (cell h r) "factr").getD (.num 100000) ∧ u.gtol = (look (cell h r) "gtol").getD (.num (1/100000)) ∧
      d.get h' .init_from = .ok (u.initFrom, h') ∧ d.get h' .init_scatter = .ok (u.initScatter, h') ∧ d.get h' .lbfgs_epsilon = .ok (u.epsilon, h') ∧ d.get h' .lbfgs_numerical = .ok (u.numerical, h') ∧
      d.get h' .lbfgs_numerical_from_lnlike = .ok (u.fromLnlike, h') ∧ d.get h' .lbfgs_use_priors = .ok (u.usePriors, h') ∧ d.get h' .test_convergence = .ok (u.testConvergence, h') := by
  have hL := (C152_accepted hf hn hall stats).2 d h' hd
  have hv := fun o ho => C152_values hf hn hall hd o ho
  have hp := hL.params
  have p1 : d.params "init_from" = some i := by rw [hp _ (by decide), hi]
  have p2 : d.params "lbfgs_options" = some (.dict r) := by rw [hp _ (by decide), hr]
  have hlen : r < h'.length := lt_of_lt_of_le (hf.refs _ r hr) hL.pre.length_le
  have hcell : cell h' r = cell h r := cell_prefix hL.pre (hf.refs _ r hr)
  refine ⟨store h' r "max_iter" (.num iterations), _, _, by simp [setupNlopt, p2], by simp only [nloptReads, p1, p2]; rfl, ?_, ?_, ?_, ?_, ?_, ?_, ?_, ?_, ?_, ?_⟩
  all_goals dsimp only
  · rw [cell_store_self (by rw [store_length]; exact hlen), cell_store_self hlen, look_put_other _ _ (by decide), look_put_self]; rfl
  · rw [cell_store_self (by rw [store_length]; exact hlen), cell_store_self hlen, look_put_other _ _ (by decide), look_put_other _ _ (by decide), hcell]
  · rw [cell_store_self (by rw [store_length]; exact hlen), cell_store_self hlen, look_put_other _ _ (by decide), look_put_other _ _ (by decide), hcell]
  · rw [hv .init_from (Or.inr (by simp [NoneIsEmpty])), show file (Opt.name .init_from) = some i from hi]; rfl
  · rw [hv .init_scatter (Or.inr (by simp [NoneIsEmpty])), hp _ (by decide)]; rfl
  · rw [hv .lbfgs_epsilon (Or.inr (by simp [NoneIsEmpty])), hp _ (by decide)]; rfl
  · rw [hv .lbfgs_numerical (Or.inr (by simp [NoneIsEmpty])), hp _ (by decide)]; rfl
  · rw [hv .lbfgs_numerical_from_lnlike (Or.inr (by simp [NoneIsEmpty])), hp _ (by decide)]; rfl
  · rw [hv .lbfgs_use_priors (Or.inr (by simp [NoneIsEmpty])), hp _ (by decide)]; rfl
  · rw [hv .test_convergence (Or.inr (by simp [NoneIsEmpty])), hp _ (by decide)]; rfl

/-- without one of the two the run of `nlopt` does not start, though both have documented defaults -/
theorem C152_nlopt_default_counterexample {h : Heap} {file : String → Option Val} (hf : Fresh h file) {order : List Opt} (hn : order.Nodup) (hall : ∀ o, o ∈ order) {stats : List String} {d : Driver} {h' : Heap}
    (hd : Driver.init h file order stats = .ok (d, h')) : (file "lbfgs_options" = none → ∀ n, setupNlopt h' d.params n = .error .key) ∧ (file "init_from" = none → ∀ h2, nloptReads h2 d.params = .error .key) := by
  have hL := (C152_accepted hf hn hall stats).2 d h' hd
  refine ⟨fun hh n => ?_, fun hh h2 => ?_⟩
  · simp [setupNlopt, hL.params "lbfgs_options" (by decide), hh]
  · simp [nloptReads, hL.params "init_from" (by decide), hh]

/-- **C152** (a run of `mcmc`): the criterion and the test of convergence are the values of the options of the driver; so are the way to start and the steps of burn-in, if they are in the file -/
theorem C152_mcmc {h : Heap} {file : String → Option Val} (hf : Fresh h file) {order : List Opt} (hn : order.Nodup) (hall : ∀ o, o ∈ order) {stats : List String} {d : Driver} {h' : Heap}
    (hd : Driver.init h file order stats = .ok (d, h')) :
    d.get h' .epsilon = .ok ((mcmcReads d.params).epsilon, h') ∧ d.get h' .test_convergence = .ok ((mcmcReads d.params).testConvergence, h') ∧
      (file "init_from" ≠ none → d.get h' .init_from = .ok ((mcmcReads d.params).initFrom, h')) ∧ (file "burnin" ≠ none → d.get h' .burnin = .ok ((mcmcReads d.params).burnin, h')) := by
  have hL := (C152_accepted hf hn hall stats).2 d h' hd
  have hv := fun o ho => C152_values hf hn hall hd o ho
  have hp := hL.params
  refine ⟨?_, ?_, fun hne => ?_, fun hne => ?_⟩
  · rw [hv .epsilon (Or.inr (by simp [NoneIsEmpty]))]; simp only [mcmcReads]; rw [hp _ (by decide)]; rfl
  · rw [hv .test_convergence (Or.inr (by simp [NoneIsEmpty]))]; simp only [mcmcReads]; rw [hp "test_convergence" (by decide)]; rfl
  · obtain ⟨v, hvv⟩ := Option.ne_none_iff_exists'.1 hne
    rw [hv .init_from (Or.inr (by simp [NoneIsEmpty])), show file (Opt.name .init_from) = some v from hvv]; simp only [mcmcReads]; rw [hp "init_from" (by decide), hvv]; rfl
  · obtain ⟨v, hvv⟩ := Option.ne_none_iff_exists'.1 hne
    rw [hv .burnin (Or.inr (by simp [NoneIsEmpty])), show file (Opt.name .burnin) = some v from hvv]; simp only [mcmcReads]; rw [hp "burnin" (by decide), hvv]; rfl

/-- if they are not in the file, the driver says that it starts from the fiducial values and burns in no steps, and the sampler starts from the prior and burns in 100 -/
theorem C152_mcmc_default_counterexample {h : Heap} {file : String → Option Val} (hf : Fresh h file) {order : List Opt} (hn : order.Nodup) (hall : ∀ o, o ∈ order) {stats : List String} {d : Driver} {h' : Heap}
    (hd : Driver.init h file order stats = .ok (d, h')) :
    (file "init_from" = none → d.get h' .init_from = .ok (.str "fiducial", h') ∧ (mcmcReads d.params).initFrom = .str "prior") ∧
      (file "burnin" = none → d.get h' .burnin = .ok (.num 0, h') ∧ (mcmcReads d.params).burnin = .num 100) := by
  have hL := (C152_accepted hf hn hall stats).2 d h' hd
  have hv := fun o ho => C152_values hf hn hall hd o ho
  refine ⟨fun hh => ⟨?_, ?_⟩, fun hh => ⟨?_, ?_⟩⟩
  · rw [hv .init_from (Or.inr (by simp [NoneIsEmpty])), show file (Opt.name .init_from) = none from hh]; rfl
  · simp only [mcmcReads]; rw [hL.params "init_from" (by decide), hh]; rfl
  · rw [hv .burnin (Or.inr (by simp [NoneIsEmpty])), show file (Opt.name .burnin) = none from hh]; rfl
  · simp only [mcmcReads]; rw [hL.params "burnin" (by decide), hh]; rfl

/-- **C152** (`default_params`): every option is there, with the value given, else its default; nothing given is lost -/
theorem C152_default_params (given : String → Option Val) :
    (∀ s v, given s = some v → defaultParams given s = some v) ∧ (∀ o : Opt, defaultParams given o.name = some ((given o.name).getD o.dflt)) ∧
      ∀ s, (∀ o : Opt, o.name ≠ s) → defaultParams given s = given s := by
  have hfind : ∀ o : Opt, Opt.all.find? (fun p => p.name == o.name) = some o := by intro o; cases o <;> decide
  refine ⟨fun s v hs => by simp [defaultParams, hs], fun o => ?_, fun s hs => ?_⟩
  · rcases hg : given o.name with _ | v
    · simp [defaultParams, hg, hfind]
    · simp [defaultParams, hg]
  · rcases hg : given s with _ | v
    · have : Opt.all.find? (fun o => o.name == s) = none := by simp [hs]
      simp [defaultParams, hg, this]
    · simp [defaultParams, hg]

/-- **C152** (restart): a driver whose file says how to start restarts with the number of iterations asked for in all; every other option of the minimiser is as before -/
theorem C152_restart {h : Heap} {file : String → Option Val} (hf : Fresh h file) {order : List Opt} (hn : order.Nodup) (hall : ∀ o, o ∈ order) {stats : List String} {d : Driver} {h' : Heap}
    (hd : Driver.init h file order stats = .ok (d, h')) {i : Val} (hi : file "init_from" = some i) {r : ℕ} (hr : (file "lbfgs_options").getD (.dict 1) = .dict r) (total : ℕ) :
    ∃ d2 h2, d.restartNlopt h' total = .ok (d2, h2) ∧ d2.params "init_from" = some (.str "previous_run") ∧ d2.params "lbfgs_options" = some (.dict r) ∧ look (cell h2 r) "max_iter" = some (.num total) ∧
      (∀ k, k ≠ "max_iter" → look (cell h2 r) k = look (cell h' r) k) ∧ (∀ r', r' ≠ r → cell h2 r' = cell h' r') ∧ ∀ s, s ≠ "init_from" → s ≠ "lbfgs_options" → d2.params s = d.params s := by
  have hL := (C152_accepted hf hn hall stats).2 d h' hd
  obtain ⟨w, hw, h1, h2, -⟩ := hL.set .init_from i hi
  have p1 : d.params "init_from" = some i := by rw [hL.params _ (by decide), hi]
  have hlen : r < h'.length := by
    rcases hfile : file "lbfgs_options" with _ | v
    · rw [hfile] at hr
      simp at hr
      have := (hf.cls.trans hL.pre).length_le
      simp [classHeap] at this
      omega
    · rw [hfile] at hr
      simp at hr
      exact lt_of_lt_of_le (hf.refs _ r (by rw [hfile, hr])) hL.pre.length_le
  -- setting `init_from`
  have hset : ∃ d1, d.set h' .init_from (.str "previous_run") = .ok (d1, h') ∧ d1.attrs .init_from = some (.str "previous_run") ∧ d1.params = d.params ∧ ∀ o, o ≠ .init_from → d1.attrs o = d.attrs o := by
    have hval : validate h' .init_from (.str "previous_run") = .ok (.str "previous_run", h') := by simp [validate]
    by_cases he : objEq h' (.str "previous_run") w = true
    · refine ⟨d, by simp [Driver.set, hval, hw, he], ?_, rfl, fun _ _ => rfl⟩
      have : w = .str "previous_run" := by
        cases w <;> simp [objEq, Val.asNum] at he
        rw [he]
      rw [hw, this]
    · refine ⟨{ d with attrs := fun p => if p = .init_from then some (.str "previous_run") else d.attrs p }, by simp [Driver.set, hval, hw, he], by simp, rfl, fun o ho => by simp [ho]⟩
  obtain ⟨d1, s1, s2, s3, s4⟩ := hset
  have hget1 : d1.get h' .init_from = .ok (.str "previous_run", h') := by simp [Driver.get, s2]
  have hget2 : d1.get h' .lbfgs_options = .ok (.dict r, h') := by
    have hv := C152_values hf hn hall hd .lbfgs_options (Or.inr (by simp [NoneIsEmpty]))
    rw [show ((file (Opt.name .lbfgs_options)).getD (Opt.dflt .lbfgs_options)) = .dict r from hr] at hv
    rw [← hv]
    simp [Driver.get, s4 .lbfgs_options (by decide)]
  refine ⟨{ d1 with params := fun s => if s = "lbfgs_options" then some (.dict r) else if s = "init_from" then some (.str "previous_run") else d1.params s }, store h' r "max_iter" (.num total), ?_, ?_, ?_, ?_, ?_, ?_, ?_⟩
  · simp only [Driver.restartNlopt, s1, s3, p1, hget1, hget2]
  · simp
  · simp
  · rw [cell_store_self hlen, look_put_self]
  · intro k hk; rw [cell_store_self hlen, look_put_other _ _ hk]
  · intro r' hr'; rw [cell_store_other hr']
  · intro s a b; simp [a, b, s3]

/-- the restart of a driver whose file gives no options for the minimiser changes the default of the class: every other driver without these options, made before or later, then has the number of iterations of that restart -/
theorem C152_shared_counterexample (total : ℕ) : ∃ dA dB hB d2 h2, Driver.init classHeap (fun s => if s = "init_from" then some (.str "fiducial") else none) Opt.all [] = .ok (dA, classHeap) ∧
    Driver.init classHeap (fun _ => none) Opt.all [] = .ok (dB, hB) ∧ dB.get hB .lbfgs_options = .ok (.dict 1, hB) ∧ look (cell hB 1) "max_iter" = none ∧
    dA.restartNlopt hB total = .ok (d2, h2) ∧ dB.get h2 .lbfgs_options = .ok (.dict 1, h2) ∧ look (cell h2 1) "max_iter" = some (.num total) :=
  ⟨_, _, _, _, _, rfl, rfl, rfl, rfl, rfl, rfl, rfl⟩

/-- an option that is set on the driver later is what the driver says, and not what the solver uses nor what is saved -/
theorem C152_late_counterexample (h : Heap) (d : Driver) (v w : ℚ) (hvw : w ≠ v) (ha : d.attrs .epsilon = some (.num v)) (hp : d.params "epsilon" = some (.num v)) :
    ∃ d2, d.set h .epsilon (.num w) = .ok (d2, h) ∧ d2.get h .epsilon = .ok (.num w, h) ∧ (mcmcReads d2.params).epsilon = .num v ∧ d2.params = d.params := by
  refine ⟨{ d with attrs := fun p => if p = .epsilon then some (.num w) else d.attrs p }, ?_, ?_, ?_, rfl⟩
  · simp [Driver.set, validate, ha, objEq, Val.asNum, hvw]
  · simp [Driver.get]
  · simp [mcmcReads, hp]

/-- a file with options of its own: what the theorems ask for happens -/
example : ∃ (h : Heap) (file : String → Option Val) (d : Driver) (h' : Heap), Fresh h file ∧ file "init_from" = some (.str "prior") ∧ file "lbfgs_options" = some (.dict 3) ∧ file "theory_decorator" = some .none ∧
    Driver.init h file Opt.all ["pole_0"] = .ok (d, h') ∧ h' ≠ h := by
  refine ⟨classHeap ++ [[("factr", .num 7)]], fun s => if s = "init_from" then some (.str "prior") else if s = "lbfgs_options" then some (.dict 3) else if s = "theory_decorator" then some .none else none, _, _, ⟨by simp, ?_⟩, rfl, rfl, rfl, rfl, ?_⟩
  · intro s r hs
    split at hs
    · simp at hs
    · split at hs
      · simp at hs; subst hs; decide
      · split at hs <;> simp at hs
  · intro hc
    have := congrArg List.length hc
    simp [classHeap] at this
    exact absurd this (by decide)

end Verif.Opts
