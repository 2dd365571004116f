import Verif.JsonCast.Model
import Verif.Double.Model
/-! The conversions of `JsonCast.Model` with the numbers of IEEE 754: a `json_float` holds a `double`. -/

namespace Verif.JsonCast.Num
open Verif.Json Verif.JsonCast Verif.Double

/-- The implicit conversion of a `double` to a `float`, `/repo/src/text/json/cast.h:122-123,133-135`. (A `double` beyond the range of `float` becomes
infinite, as IEEE 754 has it; the C++ standard by itself leaves it undefined.) -/
def narrow : D → D
  | .fin x => ofRat F32 x
  | .inf n => .inf n
  | .nan => .nan

/-- The implicit conversion of an `int64_t` to a `double`, `/repo/src/text/json/cast.h:145-146,157-158`. -/
def toF (n : Int) : D := ofRat F64 n

/-- The implicit conversions to a `float`, `/repo/src/text/json/cast.h:122-125,133-137`. -/
instance : Floats D := ⟨fun n => ofRat F32 n, narrow⟩

end Verif.JsonCast.Num
