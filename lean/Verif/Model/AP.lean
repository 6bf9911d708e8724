/-
Model of the Alcock-Paczynski effect: `pyRSD/rsd/tools.py:54-75, 165-222` and the lock `pyRSD/rsd/__init__.py:6-8`.

Numbers are exact reals; `x**(0.5)` is `√x` and `x**(-0.5)` is `(√x)⁻¹`.  Arrays are modelled element by element (all the
operations are element-wise).
-/
import Mathlib.Analysis.SpecialFunctions.Pow.Real
import Mathlib.Analysis.SpecialFunctions.Sqrt

namespace Verif.AP

noncomputable section

/-- `k_AP(k_obs, mu_obs, alpha_perp, alpha_par)` (`tools.py:54-66`). -/
def kAP (k mu alphaPerp alphaPar : ℝ) : ℝ :=
  let F := alphaPar / alphaPerp
  open Classical in
  if F ≠ 1 then (k / alphaPerp) * √(1 + mu ^ 2 * (1 / F ^ 2 - 1)) else k / alphaPerp

/-- `mu_AP(mu_obs, alpha_perp, alpha_par)` (`tools.py:68-75`). -/
def muAP (mu alphaPerp alphaPar : ℝ) : ℝ :=
  let F := alphaPar / alphaPerp
  (mu / F) * (√(1 + mu ^ 2 * (1 / F ^ 2 - 1)))⁻¹

/-- The three dilation parameters of a model, or those given to the decorator (`tools.py:192-194`). -/
structure Alphas where
  par : ℝ
  perp : ℝ
  drag : ℝ

/-- Lines 207-213 of `tools.py`: `pkmu /= (alpha_perp_**2 * alpha_par_)`, `pkmu *= (alpha_drag_)**3`. -/
def rescale (a : Alphas) (pkmu : ℝ) : ℝ := pkmu / (a.perp ^ 2 * a.par) * a.drag ^ 3

/-- Bodies of methods of `(self, k, mu)`.
* `prim g`: an expression in the coordinates received; may raise.
* `call a φ b`: a call of the decorated method with body `b` of an object whose dilation parameters are `a`, at coordinates
  computed by `φ` from the ones received;
* `plain φ b`: a call of an undecorated method;
* `comb op b c`: evaluate `b`, then `c`, and combine (an exception ends the evaluation);
* `tryCatch b h`: `try: b  except: h`. -/
inductive Body (E : Type) where
  | prim (g : ℝ → ℝ → Except E ℝ)
  | call (a : Alphas) (φ : ℝ → ℝ → ℝ × ℝ) (b : Body E)
  | plain (φ : ℝ → ℝ → ℝ × ℝ) (b : Body E)
  | comb (op : ℝ → ℝ → ℝ) (b c : Body E)
  | tryCatch (b h : Body E)

variable {E : Type}

/-- Execution of a body at `(k, mu)` when the lock is in the state `locked`: the result and the new state of the lock.
The decorator is lines 184-220 of `tools.py`: `with APLock:` releases the lock however the block ends. -/
def exec : Body E → (k mu : ℝ) → (locked : Bool) → Except E ℝ × Bool
  | .prim g, k, mu, l => (g k mu, l)
  | .call a φ b, k, mu, l =>
    let (k, mu) := φ k mu
    if !l then                                                           -- line 189, `if not APLock.locked()`
      let k' := kAP k mu a.perp a.par                                    -- line 198
      let mu' := muAP mu a.perp a.par                                    -- line 199
      match exec b k' mu' true with                                      -- lines 205-208, lock acquired
      | (.ok pkmu, _) => (.ok (rescale a pkmu), false)                   -- lines 211-214, lock released
      | (.error e, _) => (.error e, false)                               -- the exception goes on, lock released
    else exec b k mu l                                                   -- lines 217-218
  | .plain φ b, k, mu, l => exec b (φ k mu).1 (φ k mu).2 l
  | .comb op b c, k, mu, l =>
    match exec b k mu l with
    | (.error e, l) => (.error e, l)
    | (.ok x, l) =>
      match exec c k mu l with
      | (.error e, l) => (.error e, l)
      | (.ok y, l) => (.ok (op x y), l)
  | .tryCatch b h, k, mu, l =>
    match exec b k mu l with
    | (.ok x, l) => (.ok x, l)
    | (.error _, l) => exec h k mu l

/-- `DarkMatterSpectrum._power` (`power/dm/power_dm.py:1079-1160`): the sum of `i ≤ max_mu//2` decorated terms
`mu**(2i) * P_mu{2i}(k)`; `power` itself is not decorated. `np.nan_to_num` is the identity on numbers. -/
def dmPower (a : Alphas) (P : ℕ → ℝ → Except E ℝ) : ℕ → Body E
  | 0 => .call a (fun k mu => (k, mu)) (.prim (fun k _ => P 0 k))
  | i + 1 => .comb (· + ·) (dmPower a P i)
      (.call a (fun k mu => (k, mu)) (.prim (fun k mu => (P (i + 1) k).map (fun p => mu ^ (2 * (i + 1)) * p))))

end

end Verif.AP
