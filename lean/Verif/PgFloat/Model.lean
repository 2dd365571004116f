import Verif.Postgres.Model
import Verif.LexFloat.Model
/-!
# Floating point columns of PostgreSQL

Models `/repo/src/database/postgresql/value.cpp:102-103`: a column of a floating point type is read with `lexical_cast<double>`. `Verif.Postgres`
has that cast as a parameter; here it is the cast of `Verif.LexFloat`. The `double`s of `Verif.Postgres` are their 64 bits, those of
`Verif.LexFloat` are rational numbers, so the bits are put together here. Not modelled: NaN and infinite numbers as results, since the cast gives none.
-/
namespace Verif.PgFloat
open Verif.Double

/-- The 63 lower bits of a finite `double`: the exponent and the significand, whose first bit adds to the exponent. -/
def low (y : Rat) : Nat :=
  if y = 0 then 0
  else
    let E := max (expo (mag y) - 52) (-1074)
    (E + 1074).toNat * 2 ^ 52 + (mag y / (2 : Rat) ^ E).floor.toNat

/-- The 64 bits of a finite `double`. -/
def bits (neg : Bool) (y : Rat) : UInt64 := UInt64.ofNat ((if neg then 2 ^ 63 else 0) + low y)

/-- Whether the number in a text has a minus in front; it is kept also for zero. -/
def minus (s : Sql.Str) : Bool := (s.dropWhile Lexical.isspace).head? = some 45

/-- `lexical_cast<double>` of a C string, `/repo/src/database/postgresql/value.cpp:103`, `/repo/src/lang/cast.h:45-56`. -/
def double (s : Sql.Str) : Option UInt64 := (LexFloat.floatOfString F64 s).map (bits (minus s))

/-- What `make_sql_value` is given, with the cast to `double`. -/
def env (memory : Option Bool) (zone : Calendar.Zone) (mktime : Calendar.Tm → Int) : Postgres.Env := ⟨memory, zone, mktime, double⟩

end Verif.PgFloat
