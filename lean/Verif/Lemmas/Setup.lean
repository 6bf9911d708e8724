import Verif.Spec.Setup
import Mathlib.Tactic.Linarith
import Mathlib.Algebra.BigOperators.Fin
import Mathlib.Algebra.Order.BigOperators.Group.Finset
/-!
Invariants of the set-up.
-/
namespace Verif.Setup

variable {σ M Cfg : Type}

theorem put_same (fs : FS σ M) (p : Path) (x : Node σ M) : put fs p x p = some x := if_pos rfl
theorem put_other (fs : FS σ M) {p q : Path} (x : Node σ M) (h : q ≠ p) : put fs p x q = fs q := if_neg h

theorem isDir_put (fs : FS σ M) {p : Path} {x : Node σ M} (hp : isDir fs p = false) (hx : x ≠ .dir) (q : Path) :
    isDir (put fs p x) q = isDir fs q := by
  by_cases h : q = p
  · subst h
    rw [hp]; unfold isDir; rw [put_same]
    cases x <;> simp_all
  · unfold isDir; rw [put_other fs x h]

theorem set_rank_self {n : ℕ} (s : State σ M Cfg n) (r : Fin n) (x) : (s.set r x).rank r = x := if_pos rfl
theorem set_rank_other {n : ℕ} (s : State σ M Cfg n) {r q : Fin n} (x) (h : q ≠ r) : (s.set r x).rank q = s.rank q := if_neg h

/-- A step of the files: nothing changes but `params.dat` and a file called `model.npy`, and directories stay. -/
theorem apply_frame {fs fs' : FS σ M} {o : Op σ M} (h : o.apply fs = some fs') :
    ∃ p x, fs' = put fs p x ∧ isDir fs p = false ∧ x ≠ .dir ∧
      (match o with | .model q _ => p = q | .clear q => p = q | .add q _ _ => p = q) := by
  cases o with
  | model p m =>
    simp only [Op.apply] at h
    split_ifs at h with hd
    simp at hd
    exact ⟨p, .mod m, by simpa using h.symm, hd.1, by simp, rfl⟩
  | clear p =>
    simp only [Op.apply] at h
    split_ifs at h with hd
    exact ⟨p, .par _, by simpa using h.symm, by simpa using hd, by simp, rfl⟩
  | add p s x =>
    simp only [Op.apply] at h
    split at h
    · rename_i f hf
      exact ⟨p, .par _, by simpa using h.symm, by unfold isDir; rw [hf], by simp, rfl⟩
    · rename_i hf
      exact ⟨p, .par _, by simpa using h.symm, by unfold isDir; rw [hf], by simp, rfl⟩
    · cases h

/-- Where rank 0 saves a model. -/
def savePath (j : Job σ M Cfg) (a : Args) (c : Cfg) : Path := join ((j.modelDir c).getD a.folder) modelName

theorem chooseModel_saved {j : Job σ M Cfg} {fs : FS σ M} {a : Args} {c : Cfg} {m : M} {sv : Option (Path × M)}
    (h : chooseModel j fs a c = .ok (m, sv)) : IsModel j fs a c m ∧
      (∀ p x, sv = some (p, x) → p = savePath j a c ∧ x = m ∧ a.model = none ∧ a.noSave = false) := by
  unfold chooseModel at h
  unfold IsModel
  split at h
  · rename_i p hp
    rw [hp]
    split at h
    · cases h
    · rename_i m' hm
      cases h
      refine ⟨?_, by simp⟩
      unfold readModel at hm
      split at hm
      · rename_i hf; cases hm; exact hf
      · cases hm
  · rename_i hp
    rw [hp]
    split_ifs at h with h1 hs
    · cases h; exact ⟨rfl, by simp⟩
    · cases h; exact ⟨rfl, by simp⟩
    · cases h
      refine ⟨rfl, ?_⟩
      intro p x hx
      cases hx
      exact ⟨rfl, rfl, rfl, by simpa using hs⟩

/-- The adding of sections. -/
def adds (j : Job σ M Cfg) (a : Args) (c : Cfg) (l : List Sec) : List (Op σ M) :=
  l.map fun s => .add (join a.folder paramsName) s (j.save c s)

/-- What holds of a rank whatever the files are: what it has read, what it has. -/
def Good (j : Job σ M Cfg) (a : Args) (fs0 : FS σ M) (f : Sections σ) (r : ℕ) : RState σ M Cfg → Prop
  | .reading todo got => ∃ done, done ++ todo = readOrder ∧ got = fun q => if q ∈ done then f q else none
  | .doing todo c m => j.load f = some c ∧ IsModel j fs0 a c m ∧
      ((r ≠ 0 ∧ todo = []) ∨
       (r = 0 ∧ ((∃ pre, todo = pre ++ .clear (join a.folder paramsName) :: adds j a c writeOrder ∧
          (pre = [] ∨ (a.model = none ∧ a.noSave = false ∧ pre = [.model (savePath j a c) m]))) ∨
        ∃ done rest, done ++ rest = writeOrder ∧ todo = adds j a c rest)))
  | .waiting c m => j.load f = some c ∧ IsModel j fs0 a c m
  | .running c m => j.load f = some c ∧ IsModel j fs0 a c m
  | .failed => True

/-- The model has been saved, if it is to be. -/
def Saved (j : Job σ M Cfg) (a : Args) (fs : FS σ M) (c : Cfg) : Prop :=
  a.model = none → a.noSave = false → a.params ≠ some (join a.folder paramsName) → fs (savePath j a c) = some (.mod (j.build c))

/-- What holds of `params.dat` and of the model at the stages of rank 0. -/
def Written (j : Job σ M Cfg) (a : Args) (fs : FS σ M) : RState σ M Cfg → Prop
  | .doing todo c _ => (∀ done rest, done ++ rest = writeOrder → todo = adds j a c rest →
      fs (join a.folder paramsName) = some (.par fun s => if s ∈ done then some (j.save c s) else none)) ∧
      ((∀ p x, Op.model p x ∉ todo) → Saved j a fs c)
  | .waiting c _ => fs (join a.folder paramsName) = some (.par fun s => some (j.save c s)) ∧ Saved j a fs c
  | .running c _ => fs (join a.folder paramsName) = some (.par fun s => some (j.save c s)) ∧ Saved j a fs c
  | _ => True

/-- Rank 0 saves the model unless it was given, or not wanted, or the parameters are those of the folder. -/
theorem chooseModel_none {j : Job σ M Cfg} {fs : FS σ M} {a : Args} {c : Cfg} {m : M}
    (h : chooseModel j fs a c = .ok (m, none)) (h1 : a.model = none) (h2 : a.noSave = false)
    (h3 : a.params ≠ some (join a.folder paramsName)) : False := by
  unfold chooseModel at h
  rw [h1, h2] at h
  simp [h3] at h

/-- Is the rank still reading? -/
def RState.isReading : RState σ M Cfg → Bool
  | .reading _ _ => true
  | _ => false

/-- The invariant. -/
structure Inv (j : Job σ M Cfg) (a : Args) (fs0 : FS σ M) (src : Path) (f : Sections σ) {n : ℕ} (s : State σ M Cfg n) : Prop where
  good : ∀ r, Good j a fs0 f r.val (s.rank r)
  written : ∀ r, r.val = 0 → Written j a s.fs (s.rank r)
  src : (src ≠ join a.folder paramsName ∨ ∃ r, (s.rank r).isReading = true) → s.fs src = some (.par f)
  mod : ∀ p, a.model = some p → s.fs p = fs0 p
  dirs : ∀ p, isDir s.fs p = isDir fs0 p
  frame : ∀ p, p ≠ join a.folder paramsName → p.getLast? ≠ some modelName → s.fs p = fs0 p
  /-- passing the barrier needs all -/
  pass : (∃ r, ∃ c m, s.rank r = .running c m) → ∀ q, (s.rank q).arrived = true

theorem all_read (q : Sec) : q ∈ readOrder := by cases q <;> decide
theorem all_written (q : Sec) : q ∈ writeOrder := by cases q <;> decide

theorem join_ne (a : Args) (p : Path) : join p modelName ≠ join a.folder paramsName := by
  intro h
  have := congrArg List.getLast? h
  simp [join, modelName, paramsName] at this

theorem join_last (p : Path) : (join p modelName).getLast? = some modelName := by simp [join]

theorem adds_ne_pre {j : Job σ M Cfg} {a : Args} {c : Cfg} {pre : List (Op σ M)} {l rest : List Sec}
    (hpre : pre = [] ∨ ∃ p m, pre = [.model p m]) :
    pre ++ .clear (join a.folder paramsName) :: adds j a c l ≠ adds j a c rest := by
  rcases hpre with h | ⟨p, m, h⟩ <;> subst h <;> cases rest <;> simp [adds]

theorem inv_step {j : Job σ M Cfg} {a : Args} {fs0 : FS σ M} {src : Path} {f : Sections σ} {n : ℕ} {s t : State σ M Cfg n}
    (hsrc : a.params = some src) (hlast : src.getLast? ≠ some modelName) (hm : a.model ≠ some (join a.folder paramsName))
    (hn : src ≠ join a.folder paramsName ∨ n = 1)
    (h : Inv j a fs0 src f s) (r : Fin n) (hs : step j a s r = some t) : Inv j a fs0 src f t := by
  -- a rank that only changes its own state
  have own : ∀ x : RState σ M Cfg, t = s.set r x → Good j a fs0 f r.val x → (r.val = 0 → Written j a s.fs x) →
      (x.isReading = true → (s.rank r).isReading = true) →
      (∀ c m, x = .running c m → ∀ q, (s.rank q).arrived = true) →
      ((s.rank r).arrived = true → x.arrived = true) → Inv j a fs0 src f t := by
    intro x ht hg hw hr hp ha
    subst ht
    refine ⟨fun q => ?_, fun q hq => ?_, ?_, h.mod, h.dirs, h.frame, ?_⟩
    · by_cases e : q = r
      · subst e; rw [set_rank_self]; exact hg
      · rw [set_rank_other _ _ e]; exact h.good q
    · by_cases e : q = r
      · subst e; rw [set_rank_self]; exact hw hq
      · rw [set_rank_other _ _ e]; exact h.written q hq
    · rintro (h1 | ⟨q, hq⟩)
      · exact h.src (Or.inl h1)
      · by_cases e : q = r
        · subst e; rw [set_rank_self] at hq; exact h.src (Or.inr ⟨q, hr hq⟩)
        · rw [set_rank_other _ _ e] at hq; exact h.src (Or.inr ⟨q, hq⟩)
    · rintro ⟨q, c, m, hq⟩ q'
      have hall : ∀ q', (s.rank q').arrived = true := by
        by_cases e : q = r
        · subst e; rw [set_rank_self] at hq; exact hp c m hq
        · rw [set_rank_other _ _ e] at hq; exact h.pass ⟨q, c, m, hq⟩
      by_cases e : q' = r
      · subst e; rw [set_rank_self]; exact ha (hall q')
      · rw [set_rank_other _ _ e]; exact hall q'
  have hgr := h.good r
  have hwr := h.written r
  unfold step at hs
  split at hs
  · -- reading
    rename_i tt todo got hst
    have hrd : (s.rank r).isReading = true := by rw [hst]; rfl
    have hf := h.src (Or.inr ⟨r, hrd⟩)
    rw [hsrc, Option.bind_some, hf] at hs
    simp only [Option.some.injEq] at hs
    refine own _ hs.symm ?_ (fun _ => trivial) (fun _ => hrd) (by intro c m e; cases e) (by rw [hst]; intro e; cases e)
    rw [hst] at hgr
    obtain ⟨done, hd, hg⟩ := hgr
    refine ⟨done ++ [tt], by rw [← hd]; simp, ?_⟩
    funext q
    by_cases e : q = tt
    · subst e; simp
    · simp [e, hg]
  · -- the driver is made
    rename_i got hst
    have hrd : (s.rank r).isReading = true := by rw [hst]; rfl
    rw [hst] at hgr
    obtain ⟨done, hd, hg⟩ := hgr
    have hgot : got = f := by
      rw [hg]; funext q
      have : q ∈ done := by rw [List.append_nil] at hd; rw [hd]; exact all_read q
      simp [this]
    split at hs
    · simp only [Option.some.injEq] at hs
      exact own _ hs.symm trivial (fun _ => trivial) (fun _ => hrd) (by intro c m e; cases e) (by rw [hst]; intro e; cases e)
    · rename_i c hc
      split at hs
      · simp only [Option.some.injEq] at hs
        exact own _ hs.symm trivial (fun _ => trivial) (fun _ => hrd) (by intro c m e; cases e) (by rw [hst]; intro e; cases e)
      · rename_i m sv hcm
        simp only [Option.some.injEq] at hs
        obtain ⟨h1, h2⟩ := chooseModel_saved hcm
        have him : IsModel j fs0 a c m := by
          unfold IsModel at h1 ⊢
          cases hmod : a.model with
          | none => rw [hmod] at h1; exact h1
          | some p => rw [hmod] at h1; simp only at h1 ⊢; rw [← h.mod p hmod]; exact h1
        refine own _ hs.symm ⟨by rw [← hgot]; exact hc, him, ?_⟩ ?_ (fun e => by cases e) (by intro c m e; cases e) (by rw [hst]; intro e; cases e)
        · by_cases h0 : r.val = 0
          · right
            refine ⟨h0, Or.inl ?_⟩
            cases hsv : sv with
            | none => exact ⟨[], by simp [ops, h0, adds], Or.inl rfl⟩
            | some pm =>
              obtain ⟨p, x⟩ := pm
              obtain ⟨e1, e2, e3, e4⟩ := h2 p x hsv
              subst e2
              exact ⟨[.model p x], by simp [ops, h0, adds], Or.inr ⟨e3, e4, by rw [e1]⟩⟩
          · left; exact ⟨h0, by simp [ops, h0]⟩
        · intro h0
          refine ⟨?_, ?_⟩
          rotate_left
          · intro hno h1 h2 h3
            exfalso
            cases hsv : sv with
            | none => rw [hsv] at hcm; exact chooseModel_none hcm h1 h2 h3
            | some pm => exact hno pm.1 pm.2 (by simp [ops, h0, hsv])
          intro done rest _ e
          exfalso
          cases hsv : sv with
          | none =>
            rw [hsv] at e
            exact adds_ne_pre (pre := []) (Or.inl rfl) (by simpa [ops, h0, adds] using e)
          | some pm =>
            rw [hsv] at e
            exact adds_ne_pre (pre := [.model pm.1 pm.2]) (Or.inr ⟨pm.1, pm.2, rfl⟩) (by simpa [ops, h0, adds] using e)
  · -- a step on the files
    rename_i o todo c m hst
    split at hs
    · simp only [Option.some.injEq] at hs
      refine own _ hs.symm trivial (fun _ => trivial) (fun e => by cases e) (by intro c m e; cases e) (by rw [hst]; intro e; cases e)
    · rename_i fs' hap
      simp only [Option.some.injEq] at hs
      rw [hst] at hgr
      obtain ⟨hc, him, hcase⟩ := hgr
      have h0 : r.val = 0 := by
        rcases hcase with ⟨_, e⟩ | ⟨e, _⟩
        · cases e
        · exact e
      have hw := hwr h0
      rw [hst] at hw
      obtain ⟨p, x, hfs, hpd, hxd, hpo⟩ := apply_frame hap
      -- where it writes
      have hpp : p = join a.folder paramsName ∨ (a.model = none ∧ p = savePath j a c) := by
        rcases hcase with ⟨_, e⟩ | ⟨_, ⟨pre, e, hpre⟩ | ⟨done, rest, _, e⟩⟩
        · cases e
        · rcases hpre with hpre | ⟨hmn, hns, hpre⟩
          · subst hpre; cases e; exact Or.inl hpo
          · subst hpre; cases e; exact Or.inr ⟨hmn, hpo⟩
        · cases rest with
          | nil => cases e
          | cons q rest => cases e; exact Or.inl hpo
      have hsne : src ≠ join a.folder paramsName → fs' src = s.fs src := by
        intro hne
        rw [hfs]
        refine put_other _ _ ?_
        rcases hpp with e | ⟨_, e⟩
        · rw [e]; exact hne
        · intro e'; apply hlast; rw [e', e]; exact join_last _
      subst hs
      refine ⟨fun q => ?_, fun q hq => ?_, ?_, ?_, ?_, ?_, ?_⟩
      · by_cases e : q = r
        · subst e; rw [set_rank_self]
          refine ⟨hc, him, Or.inr ⟨h0, ?_⟩⟩
          rcases hcase with ⟨_, e⟩ | ⟨_, ⟨pre, e, hpre⟩ | ⟨done, rest, hdr, e⟩⟩
          · cases e
          · rcases hpre with hpre | ⟨hmn, hns, hpre⟩
            · subst hpre; cases e; exact Or.inr ⟨[], writeOrder, rfl, rfl⟩
            · subst hpre; cases e; exact Or.inl ⟨[], rfl, Or.inl rfl⟩
          · cases rest with
            | nil => cases e
            | cons q' rest => cases e; exact Or.inr ⟨done ++ [q'], rest, by rw [← hdr]; simp, rfl⟩
        · rw [set_rank_other _ _ e]; exact h.good q
      · have e : q = r := Fin.ext (by rw [hq, h0])
        subst e; rw [set_rank_self]
        refine ⟨?_, ?_⟩
        rotate_left
        · intro hno h1 h2 h3
          show fs' _ = _
          rcases hcase with ⟨_, e⟩ | ⟨_, ⟨pre, e, hpre⟩ | ⟨done', rest', hdr', e⟩⟩
          · cases e
          · rcases hpre with hpre | ⟨hmn, hns, hpre⟩
            · subst hpre; cases e
              rw [hfs, put_other, hw.2 (by intro p x hx; simp [adds] at hx) h1 h2 h3]
              rw [hpo]; exact join_ne _ _
            · subst hpre; cases e
              have hx : x = .mod m := by
                have := hap
                simp only [Op.apply] at this
                split_ifs at this
                simp only [Option.some.injEq] at this
                have h4 := congrFun (hfs.symm.trans this.symm) p
                rw [put_same, hpo, put_same] at h4
                exact Option.some.inj h4
              rw [hfs, hpo, put_same, hx]
              unfold IsModel at him
              rw [h1] at him
              simp only at him
              rw [him]
          · cases rest' with
            | nil => cases e
            | cons q' rest' =>
              cases e
              rw [hfs, put_other, hw.2 (by intro p x hx; simp at hx) h1 h2 h3]
              rw [hpo]; exact join_ne _ _
        intro done rest hdr htodo
        show fs' _ = _
        rcases hcase with ⟨_, e⟩ | ⟨_, ⟨pre, e, hpre⟩ | ⟨done', rest', hdr', e⟩⟩
        · cases e
        · rcases hpre with hpre | ⟨hmn, hns, hpre⟩
          · subst hpre
            cases e
            -- the file was emptied
            have hlen : rest.length = writeOrder.length := by
              have := congrArg List.length htodo; simpa [adds] using this.symm
            have hd : done = [] := by
              have := congrArg List.length hdr; rw [List.length_append, hlen] at this
              exact List.eq_nil_of_length_eq_zero (by omega)
            subst hd
            simp only [Op.apply] at hap
            split_ifs at hap with hdd
            simp only [Option.some.injEq] at hap
            rw [← hap, put_same]
            simp
          · subst hpre
            cases e
            exfalso
            exact adds_ne_pre (pre := []) (Or.inl rfl) htodo
        · cases rest' with
          | nil => cases e
          | cons q' rest' =>
            have hold := hw.1 done' (q' :: rest') hdr' e
            cases e
            have hlen : rest.length = rest'.length := by
              have := congrArg List.length htodo; simpa [adds] using this.symm
            have hdd : done = done' ++ [q'] ∧ rest = rest' := by
              have h2 : done ++ rest = (done' ++ [q']) ++ rest' := by rw [hdr, ← hdr']; simp
              refine List.append_inj' h2 hlen
            simp only [Op.apply, hold, Option.some.injEq] at hap
            rw [← hap, put_same, hdd.1]
            congr 2
            funext x
            by_cases e : x = q'
            · subst e; simp
            · simp [e]
      · rintro (h1 | ⟨q, hq⟩)
        · show fs' src = _
          rw [hsne h1]; exact h.src (Or.inl h1)
        · rcases hn with h1 | h1
          · show fs' src = _
            rw [hsne h1]; exact h.src (Or.inl h1)
          · exfalso
            subst h1
            have : q = r := Subsingleton.elim q r
            subst this
            rw [set_rank_self] at hq; cases hq
      · intro p' hp'
        show fs' p' = _
        rw [hfs, put_other, h.mod p' hp']
        intro e
        rcases hpp with e' | ⟨e', _⟩
        · exact hm (by rw [hp', e, e'])
        · rw [hp'] at e'; cases e'
      · intro q
        show isDir fs' q = _
        rw [hfs, isDir_put _ hpd hxd, h.dirs]
      · intro q h1 h2
        show fs' q = _
        rw [hfs, put_other, h.frame q h1 h2]
        intro e
        rcases hpp with e' | ⟨_, e'⟩
        · exact h1 (by rw [e, e'])
        · apply h2; rw [e, e']; exact join_last _
      · rintro ⟨q, c', m', hq⟩
        exfalso
        have hrun : ∃ q, ∃ c m, s.rank q = .running c m := by
          by_cases e : q = r
          · subst e; rw [set_rank_self] at hq; cases hq
          · exact ⟨q, c', m', by rw [set_rank_other _ _ e] at hq; exact hq⟩
        have := h.pass hrun r
        rw [hst] at this; cases this
  · -- to the barrier
    rename_i c m hst
    simp only [Option.some.injEq] at hs
    rw [hst] at hgr
    obtain ⟨hc, him, -⟩ := hgr
    refine own _ hs.symm ⟨hc, him⟩ ?_ (fun e => by cases e) (by intro c m e; cases e) (by rw [hst]; intro e; cases e)
    intro h0
    have hw := hwr h0
    rw [hst] at hw
    have := hw.1 writeOrder [] (by simp) rfl
    exact ⟨by simpa [all_written] using this, hw.2 (by simp)⟩
  · -- past the barrier
    rename_i c m hst
    split_ifs at hs with hall
    simp only [Option.some.injEq] at hs
    rw [hst] at hgr
    refine own _ hs.symm hgr ?_ (fun e => by cases e) (fun _ _ _ => hall) (fun _ => rfl)
    intro h0
    have hw := hwr h0
    rw [hst] at hw
    exact hw
  · cases hs
  · cases hs

theorem inv_begin (j : Job σ M Cfg) (a : Args) (fs0 : FS σ M) (src : Path) (f : Sections σ) (n : ℕ) (hf : fs0 src = some (.par f)) :
    Inv j a fs0 src f (begin_ fs0 n : State σ M Cfg n) := by
  refine ⟨fun r => ⟨[], rfl, by simp⟩, fun _ _ => trivial, fun _ => hf, fun _ _ => rfl, fun _ => rfl, fun _ _ _ => rfl, ?_⟩
  rintro ⟨r, c, m, h⟩; cases h

theorem inv_reach {j : Job σ M Cfg} {a : Args} {fs0 : FS σ M} {src : Path} {f : Sections σ} {n : ℕ} {s : State σ M Cfg n}
    (hsrc : a.params = some src) (hlast : src.getLast? ≠ some modelName) (hm : a.model ≠ some (join a.folder paramsName))
    (hn : src ≠ join a.folder paramsName ∨ n = 1) (hf : fs0 src = some (.par f)) (h : Reach j a fs0 s) : Inv j a fs0 src f s := by
  obtain ⟨k, h⟩ := h
  generalize hb : (begin_ fs0 n : State σ M Cfg n) = b at h
  induction h with
  | refl s => subst hb; exact inv_begin j a fs0 src f n hf
  | next r _ hs ih => exact inv_step hsrc hlast hm hn (ih hb) r hs

/-- What is left to do. -/
def RState.weight : RState σ M Cfg → ℕ
  | .reading todo _ => todo.length + 10
  | .doing todo _ _ => todo.length + 2
  | .waiting _ _ => 1
  | _ => 0

theorem ops_length (j : Job σ M Cfg) (a : Args) (r : ℕ) (c : Cfg) (sv : Option (Path × M)) : (ops j a r c sv).length ≤ 7 := by
  unfold ops
  split_ifs
  · cases sv <;> simp [writeOrder]
  · simp

theorem step_weight {j : Job σ M Cfg} {a : Args} {n : ℕ} {s t : State σ M Cfg n} {r : Fin n} (h : step j a s r = some t) :
    (∑ q, (t.rank q).weight) + 1 ≤ ∑ q, (s.rank q).weight := by
  have key : ∀ x, t.rank = (s.set r x).rank → x.weight + 1 ≤ (s.rank r).weight →
      (∑ q, (t.rank q).weight) + 1 ≤ ∑ q, (s.rank q).weight := by
    intro x ht hx
    rw [ht, ← Finset.add_sum_erase _ _ (Finset.mem_univ r), ← Finset.add_sum_erase _ (fun q => (s.rank q).weight) (Finset.mem_univ r),
      set_rank_self]
    have : ∑ q ∈ Finset.univ.erase r, ((s.set r x).rank q).weight = ∑ q ∈ Finset.univ.erase r, (s.rank q).weight := by
      refine Finset.sum_congr rfl fun q hq => ?_
      rw [set_rank_other _ _ (Finset.ne_of_mem_erase hq)]
    rw [this]; omega
  unfold step at h
  split at h
  · rename_i hst
    split at h <;> cases h <;> refine key _ rfl ?_ <;> rw [hst] <;> simp [RState.weight] 
  · rename_i hst
    split at h
    · cases h; refine key _ rfl ?_; rw [hst]; simp [RState.weight]
    · split at h
      · cases h; refine key _ rfl ?_; rw [hst]; simp [RState.weight]
      · rename_i c _ _ m sv _
        cases h; refine key _ rfl ?_; rw [hst]
        have := ops_length j a r.val c sv
        simp only [RState.weight, List.length_nil]; omega
  · rename_i hst
    split at h <;> cases h <;> refine key _ rfl ?_ <;> rw [hst] <;> simp [RState.weight] 
  · rename_i hst
    cases h; refine key _ rfl ?_; rw [hst]; simp [RState.weight]
  · rename_i hst
    split_ifs at h
    cases h; refine key _ rfl ?_; rw [hst]; simp [RState.weight]
  · cases h
  · cases h

end Verif.Setup
