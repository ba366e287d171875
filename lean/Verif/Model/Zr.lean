import Verif.Model.LSSS
import Mathlib.Algebra.EuclideanDomain.Int
import Mathlib.Data.Int.GCD
/-!
# The `ZP` class and secret sharing over it (src/lsss/zelement_bp.cpp, src/lsss/zlsss.cpp)

Verif/Model/LSSS.lean computes with elements of a field. The code computes with `ZP` objects: an integer of
arbitrary size, a modulus and a flag saying whether the modulus has been set. This file models the objects and
repeats the arithmetic parts of zlsss.cpp literally over them.

RELIC's integers are modelled by `Int`. Assumptions on RELIC, all from its documentation: `bn_mod` returns
the non-negative remainder for a positive modulus, `bn_mod_inv` the inverse in `[0, m)` when there is one,
`bn_mxp` the power for a non-negative exponent. In the other cases (modulus zero, no inverse, negative
exponent) RELIC reports an error and leaves the result unspecified, which is the outcome `ub`.
-/
set_option autoImplicit false
namespace Abe

/-! ## RELIC integers (include/lsss/zelement.h:41-69) -/

/-- zelement.h:59 `zmbignum_mod` = `bn_mod`. -/
def bnMod (a m : Int) : Res Int := if 0 < m then .ok (a % m) else .ub

/-- zelement.h:69 `zmbignum_mod_inv` = `bn_mod_inv`. -/
def bnModInv (a m : Int) : Res Int :=
  if 0 < m ∧ Int.gcd a m = 1 then .ok (Int.gcdA a m % m) else .ub

/-- zelement.h:65 `zmbignum_exp` = `bn_mxp`. -/
def bnExp (a b m : Int) : Res Int := if 0 < m ∧ 0 ≤ b then .ok (a ^ b.toNat % m) else .ub

/-! ## The class -/

/-- include/lsss/zelement_bp.h:73-120 `ZP`: value, order and `isOrderSet`. `isInit` is true in
every object (zelement_bp.cpp:88-145) and left out. -/
structure Zr where
  val : Int := 0
  order : Int := 0
  isSet : Bool := false
  deriving DecidableEq, Repr

namespace Zr

/-- zelement_bp.cpp:96-103 `ZP(uint32_t)`. -/
def ofNat (x : Nat) : Zr := { val := x }

/-- zelement_bp.cpp:105-113 `ZP(char *hex, order)`, given the number written in hexadecimal: not reduced. -/
def ofHex (v o : Int) : Zr := { val := v, order := o, isSet := true }

/-- zelement_bp.cpp:115-124 `ZP(bytes, len, order)`, given the number in the bytes: reduced. -/
def ofBin (v o : Int) : Res Zr := do
  let r ← bnMod v o
  .ok { val := r, order := o, isSet := true }

/-- zelement_bp.cpp:253-258 `setOrder`: only the first call counts. -/
def setOrder (z : Zr) (o : Int) : Zr := if z.isSet then z else { z with order := o, isSet := true }

/-- The first lines of the binary operators (zelement_bp.cpp:174-175, 183-184, 198-199, 219-220): the order
of the left operand if set, otherwise that of the right operand, set or not. -/
def opOrder (x y : Zr) : Int := if x.isSet then x.order else y.order

/-- zelement_bp.cpp:172-179 `operator+`. -/
def add (x y : Zr) : Res Zr := do
  let r ← bnMod (x.val + y.val) (opOrder x y)
  .ok { val := r, order := opOrder x y, isSet := true }

/-- zelement_bp.cpp:181-188 `operator-`. -/
def sub (x y : Zr) : Res Zr := do
  let r ← bnMod (x.val - y.val) (opOrder x y)
  .ok { val := r, order := opOrder x y, isSet := true }

/-- zelement_bp.cpp:190-194, unary `operator-`. -/
def neg (x : Zr) : Res Zr := do
  let r ← bnMod (-x.val) x.order
  .ok { x with val := r }

/-- zelement_bp.cpp:196-203 `operator*`. -/
def mul (x y : Zr) : Res Zr := do
  let r ← bnMod (x.val * y.val) (opOrder x y)
  .ok { val := r, order := opOrder x y, isSet := true }

/-- zelement_bp.cpp:210-224 and zelement.h:64 `operator/`: the process ends if the divisor is the
integer zero. -/
def div (x y : Zr) : Res Zr :=
  if y.val = 0 then .abort
  else do
    let i ← bnModInv y.val (opOrder x y)
    let r ← bnMod (i * x.val) (opOrder x y)
    .ok { val := r, order := opOrder x y, isSet := true }

/-- zelement_bp.cpp:205-208 `multInverse`: nothing happens without an order. -/
def multInverse (x : Zr) : Res Zr :=
  if x.isSet then do
    let r ← bnModInv x.val x.order
    .ok { x with val := r }
  else .ok x

/-- zelement_bp.cpp:226-237 `power` with an unsigned exponent: `setOrder` is called with the order of `x` whether
set or not. -/
def powU (x : Zr) (r : Nat) : Res Zr := do
  let v ← bnExp x.val r x.order
  .ok { val := v, order := x.order, isSet := true }

/-- zelement_bp.cpp:239-246 `power` with an exponent in `ZP`. -/
def pow (x r : Zr) : Res Zr := do
  let v ← bnExp x.val r.val (opOrder x r)
  .ok { val := v, order := opOrder x r, isSet := true }

/-- zelement_bp.cpp:248-251 `ismember`. -/
def ismember (x : Zr) : Bool := decide (x.val < x.order) && decide (0 ≤ x.val)

/-- zelement_bp.cpp:284-287 `setFrom`: the order of `z` is not copied. -/
def setFrom (t z : Zr) (index : Nat) : Res Zr := add { t with val := z.val } (ofNat index)

/-- zelement_bp.cpp:319-321 `operator==`: on the integers. -/
def eq (x y : Zr) : Bool := decide (x.val = y.val)

/-- zelement_bp.cpp:303-305 `operator<`. -/
def lt (x y : Zr) : Bool := decide (x.val < y.val)

/-- zelement_bp.cpp:327-332 `operator<<` (left shift): not reduced. -/
def shl (x : Zr) (b : Nat) : Zr := { x with val := x.val * 2 ^ b }

/-- zelement_bp.cpp:260-266 `setRandom(bignum_t)`: `draw` is the value returned by `bn_rand_mod`. -/
def setRandom (z : Zr) (o draw : Int) : Zr := { z.setOrder o with val := draw }

/-- zelement_bp.cpp:268-276 `setRandom(ZP &order)`: nothing happens if the argument has an order itself; the value is
drawn below the argument (`draw` is what `bn_rand_mod` returns) even if the object has another order. -/
def setRandomZP (z o : Zr) (draw : Int) : Zr :=
  if o.isSet then z
  else { (if z.isSet then z else { z with order := o.val, isSet := true }) with val := draw }

/-- zelement_bp.cpp:278-282 `setPrime`: `prime` is what `bn_gen_prime_basic` returns. -/
def setPrime (z : Zr) (prime : Int) : Zr := if z.isSet then z else { z with val := prime }

/-- zelement_bp.cpp:334-339 `operator>>` (right shift): RELIC shifts the magnitude. -/
def shr (x : Zr) (b : Nat) : Zr := { x with val := x.val.tdiv (2 ^ b) }

/-- zelement.h:54, 74-76 `zmbignum_cmp` = `bn_cmp`: -1, 0 or 1 (RELIC's `RLC_LT`, `RLC_EQ`, `RLC_GT`). -/
def cmp (x y : Zr) : Int := if x.val < y.val then -1 else if x.val = y.val then 0 else 1

/-- zelement_bp.cpp:307-309 `operator<=`: `cmp <= BN_CMP_EQ`. -/
def le (x y : Zr) : Bool := decide (cmp x y ≤ 0)

/-- zelement_bp.cpp:311-313 `operator>`. -/
def gt (x y : Zr) : Bool := decide (cmp x y = 1)

/-- zelement_bp.cpp:315-317 `operator>=`: `cmp >= BN_CMP_EQ`. -/
def ge (x y : Zr) : Bool := decide (0 ≤ cmp x y)

/-- zelement_bp.cpp:323-325 `operator!=`. -/
def ne (x y : Zr) : Bool := decide (cmp x y ≠ 0)

/-- zelement_bp.cpp:150-154 `operator+=`. -/
def addAssign (x y : Zr) : Res Zr := add x y

/-- zelement_bp.cpp:156-160 `operator*=`. -/
def mulAssign (x y : Zr) : Res Zr := mul x y

end Zr

/-! ## zlsss.cpp over `ZP` -/

/-- zlsss.cpp:434-440 `addShareToResults`. -/
def zrAddShare (o : LSSS Zr) (pre lab : Bytes) (idx : Option Nat) (elt : Zr) : Res (LSSS Zr) := do
  let u ← makeUniqueLabel o.attrCount pre lab idx
  .ok { o with results := o.results.insert u (completeLabel pre lab, elt) }

/-- zlsss.cpp:470-473, the evaluation loop. -/
def zrEvalLoop (xpow : Zr) : List Zr → Nat → Zr → Res Zr
  | [], _, share => .ok share
  | c :: cs, i, share => do
    let p ← xpow.powU i
    let m ← c.mul p
    let share' ← share.add m
    zrEvalLoop xpow cs (i + 1) share'

/-- zlsss.cpp:452-476 `evaluatePolynomial`; `q` is the order of the group (`group.order`). -/
def zrEvaluatePolynomial (q : Int) (coefficients : List Zr) (x : Nat) : Res Zr :=
  zrEvalLoop ((Zr.ofNat x).setOrder q) coefficients 0 (({} : Zr).setOrder q)

/-- zlsss.cpp:267-273: `threshold` random draws into the object `coefficient`. -/
def zrDrawCoeffs (q : Int) (tape : Nat → Int) (pos threshold : Nat) : List Zr :=
  (List.range threshold).map fun i => (({} : Zr).setOrder q).setRandom q (tape (pos + i))

/-- zlsss.cpp:278-283: the (child, share) pairs in the order they are pushed. -/
def zrChildShares (q : Int) (coeffs : List Zr) : Nat → List TNode → Res (List (TNode × Zr))
  | _, [] => .ok []
  | i, c :: cs => do
    let s ← zrEvaluatePolynomial q coeffs (i + 1)
    let rest ← zrChildShares q coeffs (i + 1) cs
    .ok ((c, s) :: rest)

/-- zlsss.cpp:244-285, the sharing loop (compare `shareLoop`). -/
def zrShareLoop (q : Int) (ndebug : Bool) (tape : Nat → Int) :
    Nat → List (TNode × Zr) → Nat → LSSS Zr → Res (LSSS Zr × Nat)
  | _, [], pos, o => .ok (o, pos)
  | 0, _ :: _, _, _ => .abort
  | fuel + 1, (t, secret) :: stk, pos, o =>
    match t with
    | .leaf _ pre lab idx => do
      let o' ← zrAddShare o pre lab idx secret
      zrShareLoop q ndebug tape fuel stk pos o'
    | .gate _ ty thr subs =>
      let threshold := if ndebug then 0 else thresholdValue ty thr subs.length
      if threshold = 0 then
        if ndebug then .ub else .abort
      else do
        let coeffs := (zrDrawCoeffs q tape pos threshold).set 0 secret
        let cs ← zrChildShares q coeffs 0 subs
        zrShareLoop q ndebug tape fuel (cs.reverse ++ stk) (pos + threshold) o

/-- zlsss.cpp:96-109, 151-164 `shareSecret`/`performSecretSharing` (compare `shareSecret`). -/
def zrShareSecret (q : Int) (ndebug : Bool) (o : LSSS Zr) (policy : Option Policy) (elt : Zr)
    (tape : Nat → Int) : Res (LSSS Zr × Nat) :=
  match policy with
  | none => .ub
  | some p =>
    let attrCount := if p.hasDup then p.dupCount else o.attrCount
    match p.root with
    | none => if ndebug then .ub else .abort
    | some t => zrShareLoop q ndebug tape t.size [(t, elt)] 0 { results := [], attrCount := attrCount }

/-- zlsss.cpp:407-420, the product. `result *= result * q` is `result = result * (result * q)`
(zelement_bp.cpp:156-160). `this->zero` never gets an order (include/lsss/zlsss.h:94). -/
def zrCoeffLoop (q : Int) (subs : List TNode) (index : Nat) : List Nat → Zr → Res Zr
  | [], result => .ok result
  | i :: is, result =>
    if markAt subs i && (i != index) then do
      let iPlusOne := (Zr.ofNat (i + 1)).setOrder q
      let indexPlusOne := (Zr.ofNat (index + 1)).setOrder q
      let num ← ({} : Zr).sub iPlusOne
      let den ← indexPlusOne.sub iPlusOne
      let quot ← num.div den
      let m ← result.mul quot
      let result' ← result.mul m
      zrCoeffLoop q subs index is result'
    else zrCoeffLoop q subs index is result

/-- zlsss.cpp:389-423 `calculateCoefficient`. -/
def zrCalculateCoefficient (q : Int) (subs : List TNode) (index threshold : Nat) : Res Zr :=
  if subs.length < threshold then .ub
  else zrCoeffLoop q subs index (List.range threshold) ((Zr.ofNat 1).setOrder q)

/-- zlsss.cpp:362-370: the marked children with their coefficients, in push order. -/
def zrChildCoeffs (q : Int) (subs : List TNode) (threshold : Nat) (inCoeff : Zr) :
    List (TNode × Nat) → Res (List (TNode × Zr))
  | [] => .ok []
  | (c, i) :: cs =>
    if c.mark then do
      let k ← zrCalculateCoefficient q subs i threshold
      let v ← inCoeff.mul k
      let rest ← zrChildCoeffs q subs threshold inCoeff cs
      .ok ((c, v) :: rest)
    else zrChildCoeffs q subs threshold inCoeff cs

/-- zlsss.cpp:323-372, the recovery loop. -/
def zrRecoverLoop (q : Int) : Nat → List (TNode × Zr) → Bool → LSSS Zr → Res (Bool × LSSS Zr)
  | _, [], result, o => .ok (result, o)
  | 0, _ :: _, _, _ => .abort
  | fuel + 1, (t, coeff) :: stk, result, o =>
    match t with
    | .leaf _ pre lab idx => do
      let o' ← zrAddShare o pre lab idx coeff
      zrRecoverLoop q fuel stk true o'
    | .gate _ ty _ subs => do
      let cs ← zrChildCoeffs q subs (recoverThreshold ty subs.length) coeff subs.zipIdx
      zrRecoverLoop q fuel (cs.reverse ++ stk) (result || !cs.isEmpty) o

/-- zlsss.cpp:122-140, 176-209 `recoverCoefficients`/`performCoefficientRecovery`. -/
def zrRecoverCoefficients (q : Int) (S : StdSort) (ndebug : Bool) (o : LSSS Zr) (policy : Option Policy)
    (A : List Bytes) : Res (Bool × LSSS Zr × Policy) :=
  match policy with
  | none => .ub
  | some p =>
    let attrCount := if p.hasDup then p.dupCount else o.attrCount
    match p.root with
    | none => if ndebug then .ub else .abort
    | some t => do
      let t' ← scan S A t
      let p' := { p with root := some t' }
      if t'.mark then do
        let (r, o') ← zrRecoverLoop q t'.size [(t', (Zr.ofNat 1).setOrder q)] false
          { results := [], attrCount := attrCount }
        if r then .ok (true, o', p')
        else .ok (false, { o' with results := [] }, p')
      else .ok (false, { results := [], attrCount := attrCount }, p')

/-- The body of the loop of `LSSStestSecretRecovery` (zlsss.cpp:672-685). -/
def zrTestStep (coefficients : SMap (Bytes × Zr)) (result : Zr) (sh : Bytes × (Bytes × Zr)) : Res Zr :=
  match coefficients.find sh.1 with
  | some c => do
    let m ← c.2.mul sh.2.2
    result.add m
  | none => .ok result

/-- zlsss.cpp:667-689 `LSSStestSecretRecovery`: the accumulator starts without an order. -/
def zrTestSecretRecovery (coefficients shares : SMap (Bytes × Zr)) : Res Zr :=
  shares.foldlM (zrTestStep coefficients) (Zr.ofNat 0)

end Abe
