import Verif.Model.Thread
/-
  The end of the FFT branch of `eval_mul_dispatch_multiplication_method` as a sequence of memory accesses, to see which cells it touches.
-/
namespace WD
namespace Thr
open Prog Loc

/-- decwide_t.h:3122-3137: what follows `mul_loop_fft`, for the object u and p limbs. `my_data.back()` is the last limb of the array. -/
def fftTailP (c : Cfg) (u p : Nat) : Prog :=
  load (limb u 0) fun u0 =>
    if u0 ≠ 0 then load (exp u) fun e => stor (exp u) (e + c.ed) done
    else copyF u 1 u 0 (min p c.N) (stor (limb u (c.N - 1)) 0 done)

end Thr
end WD
