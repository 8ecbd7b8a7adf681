import Verif.Model.Irradiance

/-!
# Kinds of sky
-/

namespace PVF

/-- All diffuse light comes evenly from the whole sky: no circumsolar light, no horizon band, and the
luminance of the sky is the diffuse horizontal irradiance. -/
structure IsotropicSky (v : IrrIn) : Prop where
  isotropic : v.perez.luminanceIsotropic = v.dhi
  circumsolar : v.perez.luminanceCircumsolar = 0
  poaCircumsolar : v.perez.poaCircumsolar = 0
  horizon : v.perez.poaHorizon = 0

end PVF
