import Verif.Json.Spec
import Verif.JsonCast.Spec
import Verif.JsonArchive.Model
/-! Which values an archive is claimed to keep. -/

namespace Verif.JsonArchive.Spec
open Verif.Json Verif.Json.Spec Verif.JsonCast Verif.JsonCast.Spec

variable {F : Type} [Floats F]

/-- Whether a value can go through an archive: it survives the conversion to JSON and back, and its JSON value the printing and parsing. -/
def Storable (strtod : List Nat → Option F) (showF : F → Str) (x : Item F) : Prop := Good x.1 x.2 ∧ Printable strtod showF (toJson x.1 x.2)

end Verif.JsonArchive.Spec
