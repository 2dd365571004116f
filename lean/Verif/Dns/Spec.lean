import Verif.Dns.Model
/-! Vocabulary of the claims on the resolver cache. -/

namespace Verif.Dns.Spec
open Verif.Dns

/-- The answers of the real resolver in a history. -/
def answers (es : List Ev) : List (Key × List Addr) := es.filterMap fun
  | .store _ key ret => some (key, ret)
  | _ => none

end Verif.Dns.Spec
