import Verif.Model.TaylorF2
/-!
# Model of the exported constants (ml4gw/constants.py)

Decimal literals are the rationals they denote (the code rounds them to the nearest double).  `EulerGamma`, `MSUN`, `G`, `C`, `MTSUN_SI` and
`MPC_SEC` are the definitions the waveform models use.
-/
namespace Verif.Constants
open CbcUtils

/-- `MRSUN` (constants.py:11). -/
noncomputable def mrsun : ℝ := 1.476625038050124729627979840144936351e3

/-- `PI` (constants.py:20). -/
noncomputable def piC : ℝ := 3.141592653589793238462643383279502884

/-- `TWO_PI` (constants.py:21). -/
noncomputable def twoPiC : ℝ := 6.283185307179586476925286766559005768

/-- `gt` (constants.py:24). -/
noncomputable def gt : ℝ := gNewton * msun / cLight ^ (3.0 : ℝ)

/-- `m_per_Mpc` (constants.py:30). -/
noncomputable def mPerMpc : ℝ := 3.085677581491367278913937957796471611e22

/-- `clightGpc` (constants.py:36). -/
noncomputable def clightGpc : ℝ := cLight / 3.0856778570831e22

end Verif.Constants
