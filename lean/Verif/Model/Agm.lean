import Verif.Model.Sqrt
import Verif.Model.Elem
import Verif.Model.Float
/-
  Model of the iterations with arithmetic-geometric means used for more than 51 decimal digits: `calc_pi`
  (decwide_t.h:4568-4712), `calc_ln_two` (4825-4929) and `log` (5738-5890). `estS` stands for the two start values of the
  square root as in `calcSqrt`, `est` for the start value of the reciprocal as in `calcInv`.
-/
namespace WD
namespace DW
variable (c : Cfg) (estS : DW → DW × DW) (est : DW → DW) (fdig : Nat)

/-- `digits10_iteration_goal` (decwide_t.h:4617-4623, 4855-4861, 5803-5822). -/
def agmGoal : Int := (c.digits10 / 2 : Nat) + max ((c.ed : Int) + 1) 9

/-- `digits10_of_iteration` of a term (decwide_t.h:4628-4642 and 4668-4680, 4893-4901, 5850-5858). `digits10_scale` is
    `lround(1000·log(10)/log(10)) = 1000` since the radix is 10, so that the factor cancels; the conversion of `-ilogb` to
    `int32_t` is left out (the terms are far inside that range). -/
def agmDigits (t : DW) : Int := max 0 (-ilogb t)

/-- The variables of `calc_pi` that live across rounds (decwide_t.h:4592-4610). -/
structure PiState where
  a : DW
  bB : DW
  t : DW
  s : DW
  p : DW

/-- `iterate_term` and the variables after the assignments of one round, up to `s += iterate_term`
    (decwide_t.h:4650-4663); `t` is still the old one. -/
def piRound (k : Nat) (st : PiState) : PiState × DW :=
  let a := divULL c est fdig (addAssign c st.a (calcSqrt c estS fdig st.bB)) 2
  let p := mulAssign c a a
  let bB := mulULL c (subAssign c p st.t) 2
  let it := mulULL c (subAssign c bB p) (2 ^ (k + 1))
  ({ a := a, bB := bB, t := st.t, s := addAssign c st.s it, p := p }, it)

/-- The loop (decwide_t.h:4644-4701): `fuel` rounds are left. Besides the state, the list of the values handed to the
    callback (one per round) is returned. -/
def piLoop : (fuel k : Nat) → PiState → PiState × List Int
  | 0, _, st => (st, [])
  | fuel + 1, k, st =>
    let r := piRound c estS est fdig k st
    let dg := agmDigits r.2
    if dg > agmGoal c then (r.1, [dg])
    else
      let q := piLoop fuel (k + 1) { r.1 with t := divULL c est fdig (addAssign c r.1.p r.1.bB) 4 }
      (q.1, dg :: q.2)

/-- The variables before the loop (decwide_t.h:4592-4610). `val_pi` is not yet assigned; it is zero here. -/
def piInit : PiState :=
  { a := ofUnsigned c 32 1, bB := half c, t := divULL c est fdig (ofUnsigned c 32 3) 8, s := half c, p := zero c }

/-- `calc_pi` for digits10 > 51 (decwide_t.h:4568-4712): the value, and the numbers reported to the callback in the loop
    (one per round; the reports of 0 before and of digits10 after the loop are left out). -/
def calcPi : DW × List Int :=
  let q := piLoop c estS est fdig 48 0 (piInit c est fdig)
  (divAssign c est fdig (addAssign c q.1.p q.1.bB) q.1.s, q.2)

/-- The AGM loop of `calc_ln_two` and `log` (decwide_t.h:4882-4919, 5841-5875): `fuel` rounds are left. Returned are `ak`, and
    the number of rounds before the one left by `break`, or `none` if the loop runs to its end. (`log` divides by the `int` 2
    and `calc_ln_two` by the `unsigned` 2; `/= 2` is the same function for both.) -/
def agmLoop (goal : Int) : (fuel : Nat) → (a b : DW) → DW × Option Nat
  | 0, a, _ => (a, none)
  | fuel + 1, a, b =>
    let dg := agmDigits (subAssign c a b)
    let s := addAssign c a b
    if dg > goal then (s, some 0)
    else
      let r := agmLoop goal fuel (divULL c est fdig s 2) (calcSqrt c estS fdig (mulAssign c b a))
      (r.1, r.2.map (· + 1))

/-- The literal 1.67F in IEEE single precision. -/
def f167 : ℚ := 14008975 / 2 ^ 23

/-- `m` of `calc_ln_two` (decwide_t.h:4837-4850). `F32` is the type `float`; digits10 is converted to it exactly (below 2^24). -/
def lnTwoM (F32 : Flt) : Int := max ⌊F32.rnd (c.digits10 * f167)⌋ 3

/-- `calc_ln_two` for digits10 > 51 (decwide_t.h:4825-4929), `pi` being the object `pi()`. The second component is the one of
    `agmLoop`. `none`: see `ldexp`. -/
def calcLnTwo (F32 : Flt) (pi : DW) : Option (DW × Option Nat) :=
  let m := lnTwoM c F32
  (ldexp c est fdig (one c) (2 - m)).map fun b =>
    let q := agmLoop c estS est fdig (agmGoal c) 128 (ofUnsigned c 32 1) b
    (divSLL c est fdig (mulAssign c pi (calcInv c est fdig q.1)) m, q.2)

/-- `m` of `log` (decwide_t.h:5759-5791). `l10` and `l2` are the values of `log(10.0F)` and `log(2.0F)`; every operation is
    rounded to `float`. -/
def logM (F32 : Flt) (l10 l2 : ℚ) (x : DW) : Int :=
  ⌊max (F32.rnd (F32.rnd (c.digits10 * f167) - F32.rnd (F32.rnd (F32.rnd (ilogb x : ℤ) * l10) / l2))) 3⌋

/-- `digits10_iteration_goal` of `log` (decwide_t.h:5803-5823). -/
def logGoal (x : DW) : Int := min (agmGoal c) (((x.prec * c.ed / 2 : Nat) : Int) + max ((c.ed : Int) + 1) 9)

/-- `log` above 1 for digits10 > 51 (decwide_t.h:5748-5884); `pi` and `ln2` are the objects `pi()` and `ln_two()`. -/
def logAgmAbove (F32 : Flt) (l10 l2 : ℚ) (pi ln2 x : DW) : Option (DW × Option Nat) :=
  let m := logM c F32 l10 l2 x
  (ldexp c est fdig (precision c (one c) (x.prec * c.ed : Nat)) (2 - m)).map fun b0 =>
    let b := divAssign c est fdig b0 x
    let q := agmLoop c estS est fdig (logGoal c x) 128 (one c) b
    (subAssign c (mulAssign c (calcInv c est fdig q.1) pi) (mulSLL c ln2 m), q.2)

/-- `log` for digits10 > 51 (decwide_t.h:5738-5890). Below 1 it calls itself with the reciprocal; `none`: the recursion is
    deeper than `depth`. -/
def logAgm (F32 : Flt) (l10 l2 : ℚ) (pi ln2 : DW) : (depth : Nat) → DW → Option DW
  | 0, _ => none
  | depth + 1, x =>
    if lt x (one c) then (logAgm F32 l10 l2 pi ln2 depth (calcInv c est fdig x)).map negate
    else if gt x (one c) then (logAgmAbove c estS est fdig F32 l10 l2 pi ln2 x).map (·.1)
    else some (zero c)

end DW
end WD
