import Verif.Sysstat.Model
import Verif.FloatText.Model
/-! The load as a number. -/
namespace Verif.Sysstat
open Verif.Double

/-- `atof`, for texts that begin with a sign or a digit, or with no number at all (the empty text gives zero), `/repo/src/system/sysstat.cpp:95`. -/
def atof (s : Str) : D := ofRat F64 (FloatText.textVal (s.map UInt8.toNat))

/-- `get_loadavg`, `/repo/src/system/sysstat.cpp:85-96`. -/
def getLoadavg (loadavg : Str) : D := atof (word loadavg).1

end Verif.Sysstat
