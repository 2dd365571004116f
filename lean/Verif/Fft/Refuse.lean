import Verif.Fft.Model
/-!
# Model of `fft2d`: what the array holds when the call throws

The functions of `Verif.Fft.Model` again, now with the contents of the array
when `length_error` leaves the call. A result `(a, true)` means that the call
has thrown and that the array holds `a`; `none` is undefined behaviour.
-/
namespace Verif.Fft
variable {R : Type} [Add R] [Sub R] [Mul R] [Zero R]

/-- `for (y…) fft_wrap(a+y*w, a+y*w+w, flip);` (`/repo/src/math/fft.h:125-126`,
`:132-133`). `fft_wrap` throws before it changes anything
(`/repo/src/math/fft.h:88`). -/
def rowsS (tw : Nat → Nat → R) (w : Nat) : Nat → List R → Option (List R × Bool)
  | 0, a => some (a, false)
  | h + 1, a =>
    match fft tw (a.take w) with
    | .throws => some (a, true)
    | .ub => none
    | .ok r => (rowsS tw w h (a.drop w)).map fun s => (r ++ s.1, s.2)

/-- `fft2d_wrap` on a linear array (`/repo/src/math/fft.h:115-136`). The columns
are transformed in a copy. -/
def fft2dS (tw : Nat → Nat → R) (a : List R) (pitch : Nat) : Option (List R × Bool) :=
  if pitch = 0 then none
  else
    let h := a.length / pitch
    let w := pitch
    if h * w ≠ a.length then some (a, true)
    else
      (rowsS tw w h a).bind fun s =>
      if s.2 then some (s.1, true)
      else
        match transpose s.1 (List.replicate (w * h) 0) w with
        | .ok t =>
          (rowsS tw h w t).bind fun u =>
          if u.2 then some (s.1, true)
          else
            match transpose u.1 s.1 h with
            | .ok b => some (b, false)
            | _ => none
        | _ => none

/-- `for (y…) fft_wrap(a[y].begin(), a[y].end(), flip);`
(`/repo/src/math/fft.h:152-153`, `:159-160`). -/
def rowsMS (tw : Nat → Nat → R) : List (List R) → Option (List (List R) × Bool)
  | [] => some ([], false)
  | r :: rs =>
    match fft tw r with
    | .throws => some (r :: rs, true)
    | .ub => none
    | .ok r => (rowsMS tw rs).map fun s => (r :: s.1, s.2)

/-- `fft2d_wrap` on a matrix (`/repo/src/math/fft.h:138-163`). -/
def fft2dMS (tw : Nat → Nat → R) (a : List (List R)) : Option (List (List R) × Bool) :=
  let h := a.length
  if !isPow2 h then some (a, true)
  else
    match a[0]? with
    | none => none
    | some r0 =>
      let w := r0.length
      if a.any (fun r => r.length != w) then some (a, true)
      else
        (rowsMS tw a).bind fun s =>
        if s.2 then some (s.1, true)
        else
          match transposeM s.1 (List.replicate w (List.replicate h 0)) with
          | .ok t =>
            (rowsMS tw t).bind fun u =>
            if u.2 then some (s.1, true)
            else
              match transposeM u.1 s.1 with
              | .ok b => some (b, false)
              | _ => none
          | _ => none

/-- The outcome alone: a call that throws is one of the outcomes of `Verif.Fft.Model`, whatever the array holds (`/repo/src/math/fft.h:88,123,144-150`). -/
def outcome {α : Type} : Option (α × Bool) → Out α
  | none => .ub
  | some (_, true) => .throws
  | some (a, false) => .ok a

end Verif.Fft
