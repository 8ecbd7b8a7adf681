import re
import os, sys
src = os.path.join(os.path.dirname(os.path.abspath(__file__)), '..', 'lean', 'Verif', 'Model') + '/'
order=['Num','Line','Rotation','PVRow','Ground','PVArray','VF','Irradiance','Engine','AOI','Fast','Weighted']
out=['import Shim','open Nat (succ)']
for f in order:
    t=open(src+f+'.lean').read()
    t=re.sub(r'^import .*\n','',t,flags=re.M)
    t=t.replace('noncomputable section','section')
    t=re.sub(r'^\s*open Classical in\n','',t,flags=re.M)
    t=t.replace('Prop','Bool')
    t=t.replace('⌊a / b⌋','Float.floor (a / b)').replace('Complex.arg ⟨x, y⟩','Float.atan2 y x')
    t=t.replace('Type*','Type').replace('[Fintype ι]','[FT ι]')
    t=t.replace('@[ext] ','')
    t=re.sub(r'/-- The timeseries view factor matrix of an array fitted.*?(?=\nend\nend PVF)','',t,flags=re.S)
    t=t.replace('let irr := irradianceVec p s','let irrA := Array.ofFn (irradianceVec p s)\n  let irr := Matrix.look irrA')
    t=t.replace('let q0 := (aMat p s vf)⁻¹.mulVec irr','let invM := Matrix.invA (aMat p s vf)\n  let q0A := Matrix.mulVecA (Matrix.look2 invM) irr\n  let q0 : Fin (n+1) → ℝ := Matrix.look q0A')
    t=t.replace('let qinc := (Matrix.diagonal (invRhoVec p s)).mulVec q0','let qA := Matrix.mulVecA (Matrix.diagonal (invRhoVec p s)) q0\n  let qinc : Fin (n+1) → ℝ := Matrix.look qA')
    for a,b in [('if tilt = 0','if tilt == 0'),('rot.deg = 0','rot.deg == 0'),('rotation ≠ 0','rotation != 0'),('skyDiffuse = 0','skyDiffuse == 0')]: t=t.replace(a,b)
    # drop runFullMode
    t=re.sub(r'/-- `PVEngine.run_full_mode` on a fitted.*?(?=\nend\nend PVF)','',t,flags=re.S)
    t=t.replace('''(emp : SurfRef → Bool) (i j : ℕ) : ℝ :=
  let n := nTsSurfaces p
  let m := vfNoSky p g emp
  if''','''(m : ℕ → ℕ → ℝ) (i j : ℕ) : ℝ :=
  let n := nTsSurfaces p
  if''')
    t=t.replace("(t : ι) (i j : ℕ) : ℝ :=\n  vfMatrix p (fitStep p (u t)) (isEmptyTs fun t => fitStep p (u t)) i j","(t : ι) : ℕ → ℕ → ℝ :=\n  vfMatrix p (fitStep p (u t)) (isEmptyTs fun t => fitStep p (u t))")
    out.append('/- ===== %s ===== -/'%f); out.append(t)
open('Model.lean','w').write('\n'.join(out))
