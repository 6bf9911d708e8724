/-
Saving and loading the Halo-Zel'dovich objects: the pickling of the classes of `pyRSD/pygcl.py` (`ZeldovichPS`, `ZeldovichP00` etc., `ZeldovichCF`, `LinearPS`, `Kaiser`) and what it does to
`InterpolatedHZPTModels`, to the power spectra and to the correlation functions of `pyRSD/rsd/hzpt/`.
-/
import Verif.Model.HzptCF
import Verif.Model.Xi

namespace Verif.Hzpt

noncomputable section

/-- A `ZeldovichPS` object loaded (`pygcl.py:245-253`, `pygcl.py:28-34`, `ZeldovichPS.cpp:33-40`): all of its data, the linear spectrum set to the same `sigma8_z`.  Simplification: the transition `k0_low`, which is
saved too, is not a variable of the model. -/
def Zel.saved (z : Zel) : Zel := ⟨z.s8, z.arr, z.s8, z.lowk⟩

/-- An `InterpolatedHZPTModels` object loaded: the base object is that which was saved; the drivers of the models are only saved as their constructor arguments (`pygcl.py:258-280`, `hzpt/interpolated.py:165`), that is as the base
object, so that they are made anew from it; parameters and tables are kept. -/
def Models.saved (h : Models) : Models :=
  { h with base := h.base.saved, models := fun key => (h.models key).map fun m => { m with driver := h.base.saved } }

/-- what a user of the collection can do: use it, or save it and go on with what is loaded -/
inductive SOp where
  | op (o : Op)
  | reload

/-- one operation -/
def Models.stepS (E : Env) (G : Grid) (K : Consts) (h : Models) : SOp → Models
  | .op o => h.step E G K o
  | .reload => h.saved

/-- A power spectrum `HaloZeldovichP00` etc. made by itself (`hzpt/__init__.py:12-39`): `none` is the `ValueError` -/
def Model.new (E : Env) (s f : ℝ) : Option Model :=
  (({ driver := Zel.new E, sigma8 := s, f := f, b1 := 0 } : Model).setSigma8 s).map fun m => { m with driver := m.driver.setLowK }

/-- ... loaded: the driver is made anew from its constructor arguments, the cosmology and redshift zero (`hzpt/__init__.py:102`, `pygcl.py:258-280`) -/
def Model.saved (E : Env) (m : Model) : Model := { m with driver := Zel.new E }

/-- ... called (`hzpt/__init__.py:272-287`, `P01.py:90-104`, `P11.py:115-129`, `Phm.py:231-251`) -/
def Model.call (E : Env) (K : Consts) (key : Key) (m : Model) (b1 k : ℝ) : Model × ℝ :=
  let m := m.sync
  let m := if key = .Phm then { m with b1 := b1 } else m
  (m, total K key m.sigma8 m.f m.b1 k (m.driver.zeldovich E key.kind k))

/-- A correlation function loaded: the driver is made anew from the cosmology and redshift zero (`hzpt/__init__.py:102`, `pygcl.py:283-288`); `sigma8_z` of the model is kept, but not passed to the driver -/
def CFModel.saved (E : Env) (ks : List ℝ) (m : CFModel) : CFModel := { m with driver := CF.new E ks }

end

/-- A Python object of `pygcl.py` with the constructor arguments it keeps -/
structure Linear where
  /-- was the redshift given? -/
  z : Option ℝ
  s8 : ℝ

/-- `LinearPS(cosmo[, z])` (`pygcl.py:141-143`, `LinearPS.cpp:5-9`, `LinearPS.i:8`), with `sigma8At z` the normalisation of the cosmology at `z` -/
def Linear.new (sigma8At : ℝ → ℝ) (z : Option ℝ) : Linear := ⟨z, sigma8At (z.getD 0)⟩

/-- a `LinearPS` loaded (`pygcl.py:145-151`): `none` is the `IndexError` of `state['args'][2]` when the redshift was not given (the sigma8 saved is then taken for the redshift before the error) -/
def Linear.saved (sigma8At : ℝ → ℝ) (l : Linear) : Option Linear :=
  match l.z with
  | some z => some { Linear.new sigma8At (some z) with s8 := l.s8 }
  | none => none

/-- a `Kaiser` object: the arguments of its constructor (`f` and possibly `b1`) and what it computes with (`pygcl.py:116-118`, `Kaiser.cpp:8-11`) -/
structure KaiserObj where
  argF : ℝ
  argB : Option ℝ
  f : ℝ
  b1 : ℝ

/-- `Kaiser(P, f[, b1])` (`Kaiser.i:8`) -/
def KaiserObj.new (f : ℝ) (b : Option ℝ) : KaiserObj := ⟨f, b, f, b.getD 1⟩

/-- a `Kaiser` object loaded (`pygcl.py:120-123`): the bias is saved only if it was not given to the constructor, the growth rate never -/
def KaiserObj.saved (K : KaiserObj) : KaiserObj := KaiserObj.new K.argF (some (K.argB.getD K.b1))

/-- the spectrum it computes with -/
def KaiserObj.toKaiser (K : KaiserObj) (P : ℝ → ℝ) : Xi.Kaiser := { P := P, f := K.f, b1 := K.b1 }

/-- `SetGrowthRate`, `SetLinearBias` (`Kaiser.h:25-28`) -/
inductive KaiserOp where
  | setF (f : ℝ)
  | setB (b : ℝ)
  | reload

/-- one operation -/
def KaiserObj.step (K : KaiserObj) : KaiserOp → KaiserObj
  | .setF f => { K with f := f }
  | .setB b => { K with b1 := b }
  | .reload => K.saved

end Verif.Hzpt
