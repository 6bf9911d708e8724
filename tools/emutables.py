import re
from fractions import Fraction
b='/repo/pyRSD/_gcl/extern/FrankenEmu/include/'
def arr(f,name):
    t=open(b+f).read()
    m=re.search(r'\b'+name+r'\s*(\[\d+\])+\s*=\s*',t)
    i=m.end(); d=0
    for j in range(i,len(t)):
        if t[j]=='{': d+=1
        if t[j]=='}':
            d-=1
            if d==0: break
    s=t[i:j+1]
    return [x for x in re.findall(r'[-+]?[\d.]+(?:[eE][-+]?\d+)?',s)]
def sc(l,n):
    r=[Fraction(x)*10**n for x in l]
    assert all(x.denominator==1 for x in r),n
    return [int(x) for x in r]
def wrap(l,per=12):
    return ',\n   '.join(', '.join(map(str,l[i:i+per])) for i in range(0,len(l),per))
ksim=sc(arr('ksim.h','ksim'),19); kemu=sc(arr('kemu.h','kemu'),8)
out='''import Verif.Model.Emu
/-
GENERATED (tools/emutables.py) from the tables of the emulator in `pyRSD/_gcl/extern/FrankenEmu/include`; do not edit.
-/
namespace Verif.Emu

/-- `ksim` (`ksim.h:17-599`), in units of 10⁻¹⁹ -/
def ksimN : List ℕ :=
  [%s]

/-- `kemu` (`kemu.h:18-518`), in units of 10⁻⁸ -/
def kemuN : List ℕ :=
  [%s]

'''%(wrap(ksim,10),wrap(kemu,14))
for suf,nm in (('',''),('_noh','Noh')):
    be=arr('corrlengths%s.h'%suf,'beta')
    lz=arr('precisions%s.h'%suf,'lamz'); lw=arr('precisions%s.h'%suf,'lamws')
    p=6 if not suf else 5
    q=len(lz); assert len(be)==p*q
    be=sc(be,10)
    out+='/-- `beta` (`corrlengths%s.h:17`), in units of 10⁻¹⁰, row after row -/\ndef beta%sN : List ℕ :=\n  [%s]\n\n'%(suf,nm,wrap(be,12))
    out+='/-- `lamz` (`precisions%s.h:20-21`), in units of 10⁻⁵ -/\ndef lamz%sN : List ℕ := [%s]\n\n'%(suf,nm,', '.join(map(str,sc(lz,5))))
    out+='/-- `lamws` (`precisions%s.h:17-18`), in units of 10⁻³ -/\ndef lamws%sN : List ℕ := [%s]\n\n'%(suf,nm,', '.join(map(str,sc(lw,3))))
out+='''/-- `aemu` (`design.h:162-163`, `design_noh.h:62-63`), in units of 10⁻⁴ -/
def aemuN : List ℕ := [%s]

noncomputable section

/-- The shipped tables of the emulator with a Hubble constant (`emu.c:36-39`, `design.h:156-163`, `meansd.h:5519`).  The limits are the doubles of 0.0215, 0.12, 0.85, 55, -1.3, 0.6 and of their sums with
0.002, 0.035, 0.2, 30, 0.6, 0.3.  The design, the weights, the basis and the means are arguments: nothing depends on their values. -/
def shipped (x : Fin 137 → Fin 6 → ℝ) (w : Fin 9 → Fin 137 → ℝ) (K : ℕ → Fin 9 → ℝ) (mean : ℕ → ℝ) : Table where
  m := 137
  p := 6
  q := 9
  rs := 11
  nk := 500
  ns := 582
  x := x
  w := w
  beta := fun i l => betaN.getD (6*i + l) 0 / 10 ^ 10
  lamz := fun i => lamzN.getD i 0 / 10 ^ 5
  lamws := fun i => lamwsN.getD i 0 / 10 ^ 3
  K := K
  mean := mean
  sd := 0.16002
  xmin := ![dy 6196953087261802 58, dy 8646911284551352 56, dy 7656119366529843 53, 55, dy (-5854679515581645) 52, dy 5404319552844595 53]
  xrange := ![dy 4611686018427388 61, dy 5044031582654956 57, dy 7205759403792794 55, 30, dy 5404319552844595 53, dy 5404319552844595 54]
  top := ![dy 6773413839565226 58, dy 5584463537939415 55, dy 4728779608739021 52, 85, dy (-6305039478318695) 53, dy 8106479329266892 53]
  kemu := fun i => kemuN.getD i 0 / 10 ^ 8
  ksim := fun i => ksimN.getD i 0 / 10 ^ 19
  aemu := fun i => aemuN.getD i 0 / 10 ^ 4

/-- The shipped tables of the emulator without a Hubble constant (`emu_noh.c:36-39`, `design_noh.h:56-63`, `meansd_noh.h:5519`), likewise -/
def shippedNoh (x : Fin 37 → Fin 5 → ℝ) (w : Fin 6 → Fin 37 → ℝ) (K : ℕ → Fin 6 → ℝ) (mean : ℕ → ℝ) : Table where
  m := 37
  p := 5
  q := 6
  rs := 11
  nk := 500
  ns := 582
  x := x
  w := w
  beta := fun i l => betaNohN.getD (5*i + l) 0 / 10 ^ 10
  lamz := fun i => lamzNohN.getD i 0 / 10 ^ 5
  lamws := fun i => lamwsNohN.getD i 0 / 10 ^ 3
  K := K
  mean := mean
  sd := 0.16002
  xmin := ![dy 6196953087261802 58, dy 8646911284551352 56, dy 7656119366529843 53, dy (-5854679515581645) 52, dy 5404319552844595 53]
  xrange := ![dy 4611686018427388 61, dy 5044031582654956 57, dy 7205759403792794 55, dy 5404319552844595 53, dy 5404319552844595 54]
  top := ![dy 6773413839565226 58, dy 5584463537939415 55, dy 4728779608739021 52, dy (-6305039478318695) 53, dy 8106479329266892 53]
  kemu := fun i => kemuN.getD i 0 / 10 ^ 8
  ksim := fun i => ksimN.getD i 0 / 10 ^ 19
  aemu := fun i => aemuN.getD i 0 / 10 ^ 4

end

end Verif.Emu
'''%', '.join(map(str,sc(arr('design.h','aemu'),4)))
assert arr('design.h','aemu')==arr('design_noh.h','aemu')
open('/verif/lean/Verif/Model/EmuTables.lean','w').write(out)
