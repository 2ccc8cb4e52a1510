import Verif.Model.Fft
import Verif.Model.Tables
import Mathlib.Logic.Function.Basic
/-
  Model of decwide_t_detail_fft.h and of the part of `mul_loop_fft` before the release of the carries
  (decwide_t_detail_ops.h:689-758). The template parameter `float_type` is a type `K` with the operations the code uses; an array
  of floats is a function from indices, a pointer into it an offset. The templates' parameter `IsForwardFft` is `fwd`.
-/
namespace WD

/-- The operations of a `float_type`: sum, difference, product, quotient, negation, `template_fast_div_by_two`
    (decwide_t_detail_fft.h:54-64), the constants 0, 1, -2, the conversion of an integer and `template_sin_order_1`
    (decwide_t_detail_fft.h:67-107). -/
structure FOps (K : Type) where
  add : K → K → K
  sub : K → K → K
  mul : K → K → K
  div : K → K → K
  neg : K → K
  half : K → K
  zero : K
  one : K
  minusTwo : K
  nat : ℕ → K
  sin1 : ℕ → K

namespace FOps
variable {K : Type} (O : FOps K)

/-- `const_unique_wp_real_init` (decwide_t_detail_fft.h:115-127). -/
def wpInit (fwd : Bool) (n : ℕ) : K := if fwd then O.sin1 n else O.neg (O.sin1 n)

/-- `const_unique_wp_imag` with `template_sin_order_2` (decwide_t_detail_fft.h:109-113, 129-141). -/
def wpImag (fwd : Bool) (n : ℕ) : K := if fwd then O.sin1 (n / 2) else O.neg (O.sin1 (n / 2))

/-- `const_unique_wp_real` (decwide_t_detail_fft.h:143-153). -/
def wpReal (fwd : Bool) (n : ℕ) : K := O.mul O.minusTwo (O.mul (O.wpInit fwd n) (O.wpInit fwd n))

/-- The step of the trigonometric recurrence (decwide_t_detail_fft.h:190-193, 301-304, 341-344). -/
def twStep (fwd : Bool) (n : ℕ) (w : K × K) : K × K :=
  (O.add w.1 (O.sub (O.mul w.1 (O.wpReal fwd n)) (O.mul w.2 (O.wpImag fwd n))),
   O.add w.2 (O.add (O.mul w.2 (O.wpReal fwd n)) (O.mul w.1 (O.wpImag fwd n))))

/-- One round of the loop of `danielson_lanczos_apply` (decwide_t_detail_fft.h:181-193); the state is the array, `real_part` and
    `imag_part`. -/
def dlStep (fwd : Bool) (n o i : ℕ) (s : (ℕ → K) × K × K) : (ℕ → K) × K × K :=
  let d := s.1
  let re := s.2.1
  let im := s.2.2
  let tr := O.sub (O.mul re (d (o + (i + n)))) (O.mul im (d (o + (i + n + 1))))
  let ti := O.add (O.mul re (d (o + (i + n + 1)))) (O.mul im (d (o + (i + n))))
  let d := Function.update d (o + (i + n)) (O.sub (d (o + i)) tr)
  let d := Function.update d (o + (i + n + 1)) (O.sub (d (o + (i + 1))) ti)
  let d := Function.update d (o + i) (O.add (d (o + i)) tr)
  let d := Function.update d (o + (i + 1)) (O.add (d (o + (i + 1))) ti)
  (d, O.twStep fwd n (re, im))

/-- The loop of `danielson_lanczos_apply` (decwide_t_detail_fft.h:174-194), `i` running over 0, 2, …, n - 2. -/
def dlLoop (fwd : Bool) (n o : ℕ) (d : ℕ → K) : ℕ → K :=
  ((List.range (n / 2)).foldl (fun s k => O.dlStep fwd n o (2 * k) s) (d, O.one, O.zero)).1

/-- `danielson_lanczos_apply_4_basecase` (decwide_t_detail_fft.h:197-237). -/
def base4 (fwd : Bool) (o : ℕ) (d : ℕ → K) : ℕ → K :=
  let tr20 := d (o + 2)
  let ti20 := d (o + 3)
  let d := Function.update d (o + 2) (O.sub (d (o + 0)) tr20)
  let d := Function.update d (o + 3) (O.sub (d (o + 1)) ti20)
  let d := Function.update d (o + 0) (O.add (d (o + 0)) tr20)
  let d := Function.update d (o + 1) (O.add (d (o + 1)) ti20)
  let tr24 := d (o + 6)
  let ti24 := d (o + 7)
  let d := Function.update d (o + 6) (O.sub (d (o + 4)) tr24)
  let d := Function.update d (o + 7) (O.sub (d (o + 5)) ti24)
  let d := Function.update d (o + 4) (O.add (d (o + 4)) tr24)
  let d := Function.update d (o + 5) (O.add (d (o + 5)) ti24)
  let tr := d (o + 4)
  let ti := d (o + 5)
  let d := Function.update d (o + 4) (O.sub (d (o + 0)) tr)
  let d := Function.update d (o + 5) (O.sub (d (o + 1)) ti)
  let d := Function.update d (o + 0) (O.add (d (o + 0)) tr)
  let d := Function.update d (o + 1) (O.add (d (o + 1)) ti)
  let re := O.add (O.wpReal fwd 4) O.one
  let im := O.wpImag fwd 4
  let tr := O.sub (O.mul re (d (o + 6))) (O.mul im (d (o + 7)))
  let ti := O.add (O.mul re (d (o + 7))) (O.mul im (d (o + 6)))
  let d := Function.update d (o + 6) (O.sub (d (o + 2)) tr)
  let d := Function.update d (o + 7) (O.sub (d (o + 3)) ti)
  let d := Function.update d (o + 2) (O.add (d (o + 2)) tr)
  let d := Function.update d (o + 3) (O.add (d (o + 3)) ti)
  d

/-- `danielson_lanczos_apply` (decwide_t_detail_fft.h:159-195) for num_points = 8·2^m. For fewer than 8 points the recursion of the
    code never ends; that is not modelled (the multiplication uses at least 4096 points). -/
def dlApply (fwd : Bool) : (m : ℕ) → (o : ℕ) → (ℕ → K) → (ℕ → K)
  | 0, o, d => O.dlLoop fwd 8 o (O.base4 fwd (o + 8) (O.base4 fwd o d))
  | m + 1, o, d => O.dlLoop fwd (8 * 2 ^ (m + 1)) o (dlApply fwd m (o + 8 * 2 ^ (m + 1)) (dlApply fwd m o d))

/-- `while((m > 1) && (j > m)) { j -= m; m >>= 1; } j += m;` (decwide_t_detail_fft.h:255-263). -/
def revNext (m j : ℕ) : ℕ :=
  if h : m > 1 ∧ j > m then revNext (m / 2) (j - m) else j + m
termination_by m
decreasing_by omega

/-- `std::swap(data[a], data[b])` (decwide_t_detail_fft.h:251-252). -/
def swapAt (d : ℕ → K) (a b : ℕ) : ℕ → K := Function.update (Function.update d a (d b)) b (d a)

/-- The bit-reversal loop of `fft_lanczos_fft` (decwide_t_detail_fft.h:243-264), `i` = 2k + 1; the state is the array and `j`. -/
def revLoop (n : ℕ) (d : ℕ → K) : ℕ → K :=
  ((List.range n).foldl (fun (s : (ℕ → K) × ℕ) k =>
    let i := 2 * k + 1
    let j := s.2
    (if j > i then swapAt (swapAt s.1 (j - 1) (i - 1)) j i else s.1, revNext n j)) (d, 1)).1

/-- `fft_lanczos_fft` (decwide_t_detail_fft.h:239-267) for num_points = 8·2^m. -/
def cfft (fwd : Bool) (m : ℕ) (d : ℕ → K) : ℕ → K := O.dlApply fwd m 0 (revLoop (8 * 2 ^ m) d)

/-- `real_part`, `imag_part` before the loop of `rfft_lanczos_rfft` (decwide_t_detail_fft.h:275-276, 317-318). -/
def rInit (fwd : Bool) (n : ℕ) : K × K := (O.add O.one (O.wpReal fwd n), O.wpImag fwd n)

/-- One round of the loop of the forward `rfft_lanczos_rfft` (decwide_t_detail_fft.h:282-304). -/
def rfftStepF (n i : ℕ) (s : (ℕ → K) × K × K) : (ℕ → K) × K × K :=
  let d := s.1
  let re := s.2.1
  let im := s.2.2
  let i1 := i + i
  let i3 := n - i1
  let i2 := 1 + i1
  let i4 := 1 + i3
  let h1r := O.half (O.add (d i1) (d i3))
  let h1i := O.half (O.sub (d i2) (d i4))
  let h2r := O.half (O.add (d i2) (d i4))
  let h2i := O.half (O.sub (d i1) (d i3))
  let d := Function.update d i1 (O.add (O.add h1r (O.mul re h2r)) (O.mul im h2i))
  let d := Function.update d i2 (O.add (O.sub h1i (O.mul re h2i)) (O.mul im h2r))
  let d := Function.update d i3 (O.sub (O.sub h1r (O.mul re h2r)) (O.mul im h2i))
  let d := Function.update d i4 (O.add (O.sub (O.neg h1i) (O.mul re h2i)) (O.mul im h2r))
  (d, O.twStep true n (re, im))

/-- One round of the loop of the inverse `rfft_lanczos_rfft` (decwide_t_detail_fft.h:324-344). -/
def rfftStepB (n i : ℕ) (s : (ℕ → K) × K × K) : (ℕ → K) × K × K :=
  let d := s.1
  let re := s.2.1
  let im := s.2.2
  let i1 := i + i
  let i3 := n - i1
  let i2 := 1 + i1
  let i4 := 1 + i3
  let h1r := O.half (O.add (d i1) (d i3))
  let h1i := O.half (O.sub (d i2) (d i4))
  let h2r := O.half (O.add (d i2) (d i4))
  let h2i := O.half (O.sub (d i1) (d i3))
  let d := Function.update d i1 (O.sub (O.sub h1r (O.mul re h2r)) (O.mul im h2i))
  let d := Function.update d i2 (O.sub (O.add h1i (O.mul re h2i)) (O.mul im h2r))
  let d := Function.update d i3 (O.add (O.add h1r (O.mul re h2r)) (O.mul im h2i))
  let d := Function.update d i4 (O.sub (O.add (O.neg h1i) (O.mul re h2i)) (O.mul im h2r))
  (d, O.twStep false n (re, im))

/-- The loop `for(i = 1; i < n/4; ++i)` of `rfft_lanczos_rfft` (decwide_t_detail_fft.h:278-305, 320-345). -/
def rLoop (fwd : Bool) (n : ℕ) (d : ℕ → K) : ℕ → K :=
  ((List.range (n / 4 - 1)).foldl (fun s k => if fwd then O.rfftStepF n (k + 1) s else O.rfftStepB n (k + 1) s) (d, O.rInit fwd n)).1

/-- The forward `rfft_lanczos_rfft` (decwide_t_detail_fft.h:269-311) for num_points = 16·2^m. -/
def rfftF (m : ℕ) (d : ℕ → K) : ℕ → K :=
  let d := O.rLoop true (16 * 2 ^ m) (O.cfft true m d)
  let f0 := d 0
  let d := Function.update d 0 (O.add f0 (d 1))
  Function.update d 1 (O.sub f0 (d 1))

/-- The inverse `rfft_lanczos_rfft` (decwide_t_detail_fft.h:313-353) for num_points = 16·2^m. -/
def rfftB (m : ℕ) (d : ℕ → K) : ℕ → K :=
  let d := O.rLoop false (16 * 2 ^ m) d
  let f0 := d 0
  let d := Function.update d 0 (O.half (O.add f0 (d 1)))
  let d := Function.update d 1 (O.half (O.sub f0 (d 1)))
  O.cfft false m d

/-- The product in transform space (decwide_t_detail_ops.h:715-726); `j` = 2k + 2. -/
def pointwise (n : ℕ) (a b : ℕ → K) : ℕ → K :=
  let a := Function.update a 0 (O.mul (a 0) (b 0))
  let a := Function.update a 1 (O.mul (a 1) (b 1))
  (List.range (n / 2 - 1)).foldl (fun a k =>
    let j := 2 * k + 2
    let t := a j
    let a := Function.update a j (O.sub (O.mul t (b j)) (O.mul (a (j + 1)) (b (j + 1))))
    Function.update a (j + 1) (O.add (O.mul t (b (j + 1))) (O.mul (a (j + 1)) (b j)))) a

/-- The two transforms, the product and the inverse transform in `mul_loop_fft` (decwide_t_detail_ops.h:710-729) for
    n_fft = 16·2^m. -/
def fftConv (m : ℕ) (a b : ℕ → K) : ℕ → K := O.rfftB m (O.pointwise (16 * 2 ^ m) (O.rfftF m a) (O.rfftF m b))

/-- The half-limbs of u in the first 2p places, then zeros (decwide_t_detail_ops.h:689-707). -/
def fillHalf (L : Limb) (p : ℕ) (u : List ℕ) (i : ℕ) : K :=
  if i < 2 * p then O.nat (if i % 2 = 0 then u.getD (i / 2) 0 / L.half else u.getD (i / 2) 0 % L.half) else O.zero

/-- `xaj`: the array after the inverse transform divided by n_fft/2 (decwide_t_detail_ops.h:689-758). -/
def xaj (L : Limb) (m p : ℕ) (u v : List ℕ) (j : ℕ) : K :=
  O.div (O.fftConv m (O.fillHalf L p u) (O.fillHalf L p v) j) (O.nat (16 * 2 ^ m / 2))

end FOps

/-- `n_fft` (decwide_t.h:3098-3103), in 32-bit arithmetic. -/
def nFft (p : ℕ) : ℕ := fftLen p * 4 % 2 ^ 32

/-- The literals of `template_sin_order_1` (decwide_t_detail_fft.h:71-106), for num_points = 2, 4, …, 2^31. -/
def sinTable : List ℚ :=
  [10 / 10 ^ 1,
   70710678118654752440084436210484903928484 / 10 ^ 41,
   38268343236508977172845998403039886676134 / 10 ^ 41,
   19509032201612826784828486847702224092769 / 10 ^ 41,
   98017140329560601994195563888641845861137 / 10 ^ 42,
   49067674327418014254954976942682658314745 / 10 ^ 42,
   24541228522912288031734529459282925065466 / 10 ^ 42,
   12271538285719926079408261951003212140372 / 10 ^ 42,
   61358846491544753596402345903725809170579 / 10 ^ 43,
   30679567629659762701453654909198425189446 / 10 ^ 43,
   15339801862847656123036971502640790799549 / 10 ^ 43,
   76699031874270452693856835794857664314092 / 10 ^ 44,
   38349518757139558907246168118138126339503 / 10 ^ 44,
   19174759731070330743990956198900093346887 / 10 ^ 44,
   95873799095977345870517210976476351187066 / 10 ^ 45,
   47936899603066884549003990494658872746867 / 10 ^ 45,
   23968449808418218729186577165021820094761 / 10 ^ 45,
   11984224905069706421521561596988984804732 / 10 ^ 45,
   59921124526424278428797118088908617299872 / 10 ^ 46,
   29960562263346607504548128083570598118252 / 10 ^ 46,
   14980281131690112288542788461553611206918 / 10 ^ 46,
   74901405658471572113049856673065563715596 / 10 ^ 47,
   37450702829238412390316917908463317739740 / 10 ^ 47,
   18725351414619534486882457659356361712045 / 10 ^ 47,
   93626757073098082799067286680885620193237 / 10 ^ 48,
   46813378536549092695115518138540096959504 / 10 ^ 48,
   23406689268274552759505493419034844037886 / 10 ^ 48,
   11703344634137277181246213503238103798093 / 10 ^ 48,
   58516723170686386908097901008341396943900 / 10 ^ 49,
   29258361585343193579282304690689559020176 / 10 ^ 49,
   14629180792671596805295321618659637103743 / 10 ^ 49]

/-- `template_sin_order_1` (decwide_t_detail_fft.h:67-107): the literal for a power of two, 0 for any other argument. -/
def sinLit (n : ℕ) : ℚ := if n = 2 ^ Nat.log2 n ∧ n ≠ 1 then sinTable.getD (Nat.log2 n - 1) 0 else 0

/-- The operations of the floating-point type F (`FftFloatType`, used in decwide_t_detail_fft.h:109-300 and
    decwide_t_detail_ops.h:671-772), each rounded once; the exponent range of the type is not modelled, nor the
    contraction of a product and a sum. The literals of the sine table are of type `long double` (`FL`) and converted to F. -/
def fltOps (F FL : Flt) : FOps ℚ :=
  { add := fun a b => F.rnd (a + b), sub := fun a b => F.rnd (a - b), mul := fun a b => F.rnd (a * b), div := fun a b => F.rnd (a / b),
    neg := fun a => -a, half := fun a => F.rnd (a / 2), zero := 0, one := 1, minusTwo := -2, nat := fun n => F.rnd n,
    sin1 := fun n => F.rnd (FL.rnd (sinLit n)) }

/-- `mul_loop_fft` (decwide_t_detail_ops.h:671-772) called with n_fft = 16·2^m (decwide_t.h:3098-3120), for p limbs. -/
def mulLoopFft (L : Limb) (F FL : Flt) (u v : List ℕ) (p : ℕ) : List ℕ :=
  fftRelease L F ((fltOps F FL).xaj L (Nat.log2 (nFft p / 16)) p u v) p

end WD
