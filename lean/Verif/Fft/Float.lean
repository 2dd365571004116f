import Verif.Fft.Model
import Verif.Double.Model
/-!
# Model of `pfi::math::fft` for `std::complex<double>`

The loops are those of `Verif.Fft.Model`; here are the operations. Every
operation is rounded by itself (no fused multiplication and addition, no
numbers wider than `double`). The functions `atan`, `cos` and `sin` of the C
library are parameters. Zero has no sign.
-/
namespace Verif.Fft
open Verif.Double

/-- `std::complex<double>`. -/
structure CF where
  re : D
  im : D
deriving DecidableEq

/-- `a[j]+=a[k]` of `std::complex` (`/repo/src/math/fft.h:69`). -/
instance : Add CF := ⟨fun a b => ⟨add F64 a.re b.re, add F64 a.im b.im⟩⟩

/-- `a[j]-a[k]` of `std::complex` (`/repo/src/math/fft.h:68`). -/
instance : Sub CF := ⟨fun a b => ⟨sub F64 a.re b.re, sub F64 a.im b.im⟩⟩

/-- `Complex(w.real()*x.real()-w.imag()*x.imag(), w.real()*x.imag()+w.imag()*x.real())`
(`/repo/src/math/fft.h:71-72`). -/
instance : Mul CF := ⟨fun w x => ⟨sub F64 (mul F64 w.re x.re) (mul F64 w.im x.im), add F64 (mul F64 w.re x.im) (mul F64 w.im x.re)⟩⟩

instance : Zero CF := ⟨⟨.fin 0, .fin 0⟩⟩

/-- The functions of the C library that are used. -/
structure Libm where
  atan : D → D
  cos : D → D
  sin : D → D

/-- `x / n` for a whole number `n` above 0. -/
def divNat : D → Nat → D
  | .fin x, n => ofRat F64 (x / n)
  | d, _ => d

/-- `value_type pi=atan(1.0)*4;` and `value_type theta=2.0*pi/n*flip;`
(`/repo/src/math/fft.h:53-54`). The length is a power of two, which is a
`double`. -/
def theta (L : Libm) (flip : Int) (n : Nat) : D :=
  mul F64 (divNat (mul F64 (.fin 2) (mul F64 (L.atan (.fin 1)) (.fin 4))) n) (.fin flip)

/-- `Complex w(cos(theta*irev), sin(theta*irev));` (`/repo/src/math/fft.h:64`). -/
def fTw (L : Libm) (flip : Int) (n k : Nat) : CF :=
  ⟨L.cos (mul F64 (theta L flip n) (.fin k)), L.sin (mul F64 (theta L flip n) (.fin k))⟩

/-- `fft` (`flip = 1`) and `ifft` (`flip = -1`) on `std::complex<double>`
(`/repo/src/math/fft.h:167-177`). -/
def fftF (L : Libm) (flip : Int) (a : List CF) : Out (List CF) := fft (fTw L flip) a

/-- `fft2d` and `ifft2d` on a linear array of `std::complex<double>`
(`/repo/src/math/fft.h:179-189`). -/
def fft2dF (L : Libm) (flip : Int) (a : List CF) (pitch : Nat) : Out (List CF) := fft2d (fTw L flip) a pitch

/-- `fft2d` and `ifft2d` on a matrix of `std::complex<double>`
(`/repo/src/math/fft.h:191-201`). -/
def fft2dMF (L : Libm) (flip : Int) (a : List (List CF)) : Out (List (List CF)) := fft2dM (fTw L flip) a

end Verif.Fft
