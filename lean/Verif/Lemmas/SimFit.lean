/-
Lemmas for C129: what the cached properties are, as functions of the parameters, and when the cache agrees with them.
-/
import Verif.Model.SimFit

namespace Verif.SimFit

noncomputable section

open Classical

/-! ### The properties as functions of the parameters -/

def pXScaler (p : Params) : Except Err Scalers := readX p >>= fun x => nonempty x.n (fitRows x)

def pY (p : Params) : Except Err Vec := readCol p p.dep

def pYerr (p : Params) : Except Err Vec := readCol p (p.dep ++ "_err")

def pYScaler (p : Params) : Except Err Scaler := pY p >>= fun y => nonempty y.n (fitVec y)

def pXScaled (p : Params) : Except Err Rows := readX p >>= fun x => pXScaler p >>= fun s => scaleRows s x

def pYScaled (p : Params) : Except Err Vec := pYScaler p >>= fun s => pY p >>= fun y => .ok ⟨y.n, fun i => s.transform (y.val i)⟩

def pYerrScaled (p : Params) : Except Err Vec := pYerr p >>= fun e => pYScaler p >>= fun s => .ok ⟨e.n, fun i => e.val i / s.scale⟩

def pXshape (p : Params) : Except Err ℕ := readX p >>= fun x => .ok x.d

def pNdim (p : Params) : Except Err ℕ := .ok p.theta.length

def pGP (p : Params) : Except Err GP :=
  pNdim p >>= fun ndim => pXshape p >>= fun xshape => (Except.ok (p.kernel, p.theta, p.useErrors) : Except Err _) >>= fun q =>
    if q.2.2 then
      pYerrScaled p >>= fun e => pXScaled p >>= fun x => (do
        let k ← makeKernel q.1 q.2.1 ndim xshape x.d
        computeWith k x.val e)
    else
      pXScaled p >>= fun x => (do
        let k ← makeKernel q.1 q.2.1 ndim xshape x.d
        compute k x.val (fun _ => tiny))

def pEvaluate (args : List Arg) (kw : List (String × Arg)) (p : Params) : Except Err (List ℝ) :=
  asked p.indep args kw >>= fun pts => pXScaler p >>= fun s => scalePoints s pts >>= fun t =>
    pYScaler p >>= fun sy => pGP p >>= fun g => pYScaled p >>= fun y => predictAll g y t >>= fun r => .ok (r.map sy.inverse)

def pCall (args : List Arg) (kw : List (String × Arg)) (p : Params) : Except Err Out := pEvaluate args kw p >>= fun l => .ok (unpack l)

/-- The cache agrees with the parameters. -/
structure Inv (s : Fit) : Prop where
  xshape : ∀ v, s.cache.xshape = some v → pXshape s.par = .ok v
  ndim : ∀ v, s.cache.ndim = some v → pNdim s.par = .ok v
  x : ∀ v, s.cache.x = some v → readX s.par = .ok v
  y : ∀ v, s.cache.y = some v → pY s.par = .ok v
  yerr : ∀ v, s.cache.yerr = some v → pYerr s.par = .ok v
  xScaler : ∀ v, s.cache.xScaler = some v → pXScaler s.par = .ok v
  yScaler : ∀ v, s.cache.yScaler = some v → pYScaler s.par = .ok v
  xScaled : ∀ v, s.cache.xScaled = some v → pXScaled s.par = .ok v
  yScaled : ∀ v, s.cache.yScaled = some v → pYScaled s.par = .ok v
  yerrScaled : ∀ v, s.cache.yerrScaled = some v → pYerrScaled s.par = .ok v
  gp : ∀ v, s.cache.gp = some v → pGP s.par = .ok v

/-- A computation that agrees with a function of the parameters -/
def Good {α : Type} (m : M α) (p : Params → Except Err α) : Prop := ∀ s, Inv s → (m s).1 = p s.par ∧ Inv (m s).2 ∧ (m s).2.par = s.par

theorem good_done {α : Type} (v : α) : Good (done v) (fun _ => .ok v) := fun _ h => ⟨rfl, h, rfl⟩

theorem good_ofPar {α : Type} (f : Params → Except Err α) : Good (ofPar f) f := fun _ h => ⟨rfl, h, rfl⟩

theorem good_andThen {α β : Type} {m : M α} {f : α → M β} {p : Params → Except Err α} {q : α → Params → Except Err β} (hm : Good m p)
    (hf : ∀ v, Good (f v) (q v)) : Good (m.andThen f) (fun P => p P >>= fun v => q v P) := by
  intro s hs
  obtain ⟨h1, h2, h3⟩ := hm s hs
  unfold M.andThen
  rcases hms : m s with ⟨r, s'⟩
  rw [hms] at h1 h2 h3
  dsimp only at h1 h2 h3
  cases r with
  | error e => dsimp only; rw [← h1]; exact ⟨rfl, h2, h3⟩
  | ok v =>
    dsimp only
    obtain ⟨g1, g2, g3⟩ := hf v s' h2
    rw [← h1]
    refine ⟨?_, g2, by rw [g3, h3]⟩
    rw [h3] at g1
    exact g1

theorem good_memo {α : Type} {c : Cache → Option α} {set : α → Cache → Cache} {m : M α} {p : Params → Except Err α} (hm : Good m p)
    (hc : ∀ s, Inv s → ∀ v, c s.cache = some v → p s.par = .ok v) (hset : ∀ s v, Inv s → p s.par = .ok v → Inv { s with cache := set v s.cache }) :
    Good (memo c set m) p := by
  intro s hs
  unfold memo
  rcases hcs : c s.cache with _ | v
  · dsimp only
    obtain ⟨h1, h2, h3⟩ := hm s hs
    rcases hms : m s with ⟨r, s'⟩
    rw [hms] at h1 h2 h3
    dsimp only at h1 h2 h3
    cases r with
    | error e => exact ⟨h1, h2, h3⟩
    | ok v => exact ⟨h1, hset s' v h2 (by rw [h3]; exact h1.symm), h3⟩
  · exact ⟨(hc s hs v hcs).symm, hs, rfl⟩

theorem good_getX : Good getX readX :=
  good_memo (good_ofPar _) (fun _ h v hv => h.x v hv) fun _ _ h hv => { h with x := fun _ hw => by cases hw; exact hv }

theorem good_getY : Good getY pY :=
  good_memo (good_ofPar _) (fun _ h v hv => h.y v hv) fun _ _ h hv => { h with y := fun _ hw => by cases hw; exact hv }

theorem good_getYerr : Good getYerr pYerr :=
  good_memo (good_ofPar _) (fun _ h v hv => h.yerr v hv) fun _ _ h hv => { h with yerr := fun _ hw => by cases hw; exact hv }

theorem good_getXshape : Good getXshape pXshape :=
  good_memo (good_andThen good_getX fun _ => good_done _) (fun _ h v hv => h.xshape v hv) fun _ _ h hv => { h with xshape := fun _ hw => by cases hw; exact hv }

theorem good_getNdim : Good getNdim pNdim :=
  good_memo (good_ofPar _) (fun _ h v hv => h.ndim v hv) fun _ _ h hv => { h with ndim := fun _ hw => by cases hw; exact hv }

theorem good_getXScaler : Good getXScaler pXScaler :=
  good_memo (good_andThen good_getX fun _ => good_ofPar _) (fun _ h v hv => h.xScaler v hv) fun _ _ h hv => { h with xScaler := fun _ hw => by cases hw; exact hv }

theorem good_getYScaler : Good getYScaler pYScaler :=
  good_memo (good_andThen good_getY fun _ => good_ofPar _) (fun _ h v hv => h.yScaler v hv) fun _ _ h hv => { h with yScaler := fun _ hw => by cases hw; exact hv }

theorem good_getXScaled : Good getXScaled pXScaled :=
  good_memo (good_andThen good_getX fun _ => good_andThen good_getXScaler fun _ => good_ofPar _) (fun _ h v hv => h.xScaled v hv)
    fun _ _ h hv => { h with xScaled := fun _ hw => by cases hw; exact hv }

theorem good_getYScaled : Good getYScaled pYScaled :=
  good_memo (good_andThen good_getYScaler fun _ => good_andThen good_getY fun _ => good_done _) (fun _ h v hv => h.yScaled v hv)
    fun _ _ h hv => { h with yScaled := fun _ hw => by cases hw; exact hv }

theorem good_getYerrScaled : Good getYerrScaled pYerrScaled :=
  good_memo (good_andThen good_getYerr fun _ => good_andThen good_getYScaler fun _ => good_done _) (fun _ h v hv => h.yerrScaled v hv)
    fun _ _ h hv => { h with yerrScaled := fun _ hw => by cases hw; exact hv }

theorem good_getGP : Good getGP pGP := by
  refine good_memo (good_andThen good_getNdim fun ndim => good_andThen good_getXshape fun xshape => good_andThen (good_ofPar _) fun q => ?_)
    (fun _ h v hv => h.gp v hv) fun _ _ h hv => { h with gp := fun _ hw => by cases hw; exact hv }
  by_cases hq : q.2.2
  · simp only [hq, if_true]
    exact good_andThen good_getYerrScaled fun e => good_andThen good_getXScaled fun x => good_ofPar _
  · simp only [hq]
    exact good_andThen good_getXScaled fun x => good_ofPar _

theorem good_evaluate (args : List Arg) (kw : List (String × Arg)) : Good (Fit.evaluate args kw) (pEvaluate args kw) :=
  good_andThen (good_ofPar _) fun _ => good_andThen good_getXScaler fun _ => good_andThen (good_ofPar _) fun _ => good_andThen good_getYScaler fun _ =>
    good_andThen good_getGP fun _ => good_andThen good_getYScaled fun _ => good_andThen (good_ofPar _) fun _ => good_done _

theorem good_call (args : List Arg) (kw : List (String × Arg)) : Good (Fit.call args kw) (pCall args kw) :=
  good_andThen (good_evaluate args kw) fun _ => good_done _

theorem inv_empty (p : Params) : Inv ⟨p, {}⟩ := by
  constructor <;> intro v hv <;> cases hv

/-! ### Assignments -/

theorem inv_setData (eqv : Same) (d : Frame) {s : Fit} (h : Inv s) : Inv (setData eqv d s).2 := by
  unfold setData
  split_ifs
  · exact h
  · have := h.ndim
    constructor <;> intro v hv <;> first | exact this v hv | cases hv

theorem inv_dropGP {s : Fit} (h : Inv s) (k : Kern) (v : String) :
    Inv { par := { s.par with kernel := k, solver := v }, cache := { s.cache with gp := none } } :=
  ⟨fun v hv => h.xshape v hv, fun v hv => h.ndim v hv, fun v hv => h.x v hv, fun v hv => h.y v hv, fun v hv => h.yerr v hv, fun v hv => h.xScaler v hv,
    fun v hv => h.yScaler v hv, fun v hv => h.xScaled v hv, fun v hv => h.yScaled v hv, fun v hv => h.yerrScaled v hv, fun _ hv => by cases hv⟩

theorem inv_setKernel (k : Kern) {s : Fit} (h : Inv s) : Inv (setKernel k s).2 := by
  unfold setKernel
  by_cases hk : k = s.par.kernel
  · rw [if_pos hk]; exact h
  · rw [if_neg hk]; exact inv_dropGP h k s.par.solver

theorem inv_setSolver (v : String) {s : Fit} (h : Inv s) : Inv (setSolver v s).2 := by
  unfold setSolver
  by_cases h1 : v ∉ ["BasicSolver", "HODLRSolver"]
  · rw [if_pos h1]; exact h
  · rw [if_neg h1]
    by_cases h2 : v = s.par.solver
    · rw [if_pos h2]; exact h
    · rw [if_neg h2]; exact inv_dropGP h s.par.kernel v

/-- In every state, whatever was assigned, `ndim` is right. -/
def NdimOk (s : Fit) : Prop := ∀ v, s.cache.ndim = some v → v = s.par.theta.length

theorem inv_ndim {s : Fit} (h : Inv s) : NdimOk s := fun v hv => by
  have := h.ndim v hv
  exact (Except.ok.inj this).symm

end

end Verif.SimFit
