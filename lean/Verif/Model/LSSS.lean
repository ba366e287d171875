import Verif.Model.Policy
import Mathlib.Algebra.Field.Basic
/-!
# Linear secret sharing (src/lsss/zlsss.cpp)

`ZP` values are elements of a field `F` (RELIC arithmetic modulo the group order,
src/lsss/zelement_bp.cpp:150-246); division by zero terminates the process there
(zelement_bp.cpp:213-216) and is the outcome `abort`. Random coefficients are read from a tape.
-/
set_option autoImplicit false
namespace Abe

/-- `std::sort` with the comparator of zlsss.cpp:579-583 (unstable): some function that returns
a permutation ordered by the second component. -/
structure StdSort where
  fn : List (Nat × Nat) → List (Nat × Nat)
  perm : ∀ l, (fn l).Perm l
  sorted : ∀ l, (fn l).Pairwise (fun a b => a.2 ≤ b.2)

/-! ## Marking -/

/-- `node->getSubnode(i)->getMark()` for an index taken from the node itself. -/
def markAt (subs : List TNode) (i : Nat) : Bool :=
  match subs[i]? with
  | some c => c.mark
  | none => false

/-- zlsss.cpp:594-601, the AND loop: were all children marked, and the sum of their counts.
Reading an uninitialised `m_Satisfied` is undefined. -/
def andLoop : List TNode → Bool → Int → Res (Bool × Int)
  | [], result, sum => .ok (result, sum)
  | c :: cs, result, sum =>
    match c.flags.sat with
    | some n => andLoop cs (result && c.mark) (sum + n)
    | none => .ub

/-- zlsss.cpp:611-620, the list of marked children with their sizes. -/
def orList : List TNode → Nat → List (Nat × Nat)
  | [], _ => []
  | c :: cs, i =>
    let cnt := if c.numSubnodes = 0 then 1 else c.numSubnodes
    if c.mark then (i, cnt) :: orList cs (i + 1) else orList cs (i + 1)

/-- zlsss.cpp:626-635, the loop that keeps `enough` marked children and unmarks the others. -/
def orLoop : List (Nat × Nat) → Nat → Bool → List TNode → Bool × List TNode
  | [], _, result, subs => (result, subs)
  | (i, _) :: l, enough, result, subs =>
    if markAt subs i then
      if 0 < enough then orLoop l (enough - 1) true subs
      else orLoop l enough result (subs.modify i (fun c => c.setMark false 0))
    else orLoop l enough result subs

/-- zlsss.cpp:585-648 `determineIfNodeShouldBeMarked` on the gate with children `subs`; the
result is the gate after marking (and its children, some of which may be unmarked). For other gate
types the node is left as it is (zlsss.cpp:643-645). -/
def determine (S : StdSort) (fl : Flags) (ty : Gate) (thr : Nat) (subs : List TNode) : Res TNode :=
  match ty with
  | .and => do
    let (result, sum) ← andLoop subs true 0
    if result then .ok (.gate { fl with mark := true, sat := some sum } ty thr subs)
    else .ok (.gate { fl with mark := false, sat := some 0 } ty thr subs)
  | .or =>
    let list := S.fn (orList subs 0)
    let (result, subs') := orLoop list 1 false subs
    if result then
      match list with
      | (_, n) :: _ => .ok (.gate { fl with mark := true, sat := some n } ty thr subs')
      | [] => .ub
    else .ok (.gate { fl with mark := false, sat := some 0 } ty thr subs')
  | _ => .ok (.gate fl ty thr subs)

/-- `m_Visited = true` (zlsss.cpp:562, 570). -/
def setVisited (t : TNode) : TNode := t.withFlags { t.flags with visited := true }

mutual
/-- zlsss.cpp:510-576 `iterativeScanTree`. The explicit stack keeps a gate until all children that
were not visited when it was reached have been processed, then marks it; written here as
recursion over the children (Verif/Model/ScanStack.lean has the literal stack machine and
Verif/Proof/ScanStack.lean proves the two equal). `A` is the attribute list
(`matchAttribute`, src/lsss/zattributelist.cpp:126-129). The read of the uninitialised
`threshold` for gates other than AND/OR (zlsss.cpp:541-545) is only in the stack machine. -/
def scan (S : StdSort) (A : List Bytes) : TNode → Res TNode
  | .leaf fl pre lab idx =>
    let m := A.contains (completeLabel pre lab)
    .ok (.leaf { fl with mark := m, sat := some (if m then 1 else 0), visited := true } pre lab idx)
  | .gate fl ty thr subs => do
    let subs' ← scanL S A subs
    let t ← determine S fl ty thr subs'
    .ok (setVisited t)
/-- the children: only those not yet visited are processed (zlsss.cpp:549-555) -/
def scanL (S : StdSort) (A : List Bytes) : List TNode → Res (List TNode)
  | [] => .ok []
  | c :: cs => do
    let cs' ← scanL S A cs
    if c.flags.visited then .ok (c :: cs')
    else do
      let c' ← scan S A c
      .ok (c' :: cs')
end

/-- zlsss.cpp:650-658 `checkIfSatisfied`: answer and the tree afterwards. -/
def checkIfSatisfied (S : StdSort) (t : TNode) (A : List Bytes) (reset : Bool := true) :
    Res ((Bool × Int) × TNode) := do
  let t' ← scan S A t
  match t'.flags.sat with
  | some n => .ok ((t'.mark, n), if reset then resetFlags t' else t')
  | none => .ub

/-! ## Sharing -/

variable {F : Type} [Field F] [DecidableEq F]

/-- The `OpenABELSSS` object (include/lsss/zlsss.h:90-129): result rows (unique label ->
(complete label, value)) and the map of duplicated labels. The prefix stored in each row is a function of
the label (zlsss.cpp:59-63) and is left out. -/
structure LSSS (F : Type) where
  results : SMap (Bytes × F) := []
  attrCount : SMap Nat := []

/-- zlsss.cpp:489-499 `makeUniqueLabel`. -/
def makeUniqueLabel (attrCount : SMap Nat) (pre lab : Bytes) (idx : Option Nat) : Res Bytes :=
  let label := completeLabel pre lab
  if (attrCount.find label).isSome then
    match idx with
    | some i => .ok (label ++ b!"%" ++ natDec i)
    | none => .ub
  else .ok label

/-- zlsss.cpp:434-440 `addShareToResults`. -/
def addShare (o : LSSS F) (pre lab : Bytes) (idx : Option Nat) (elt : F) : Res (LSSS F) := do
  let u ← makeUniqueLabel o.attrCount pre lab idx
  .ok { o with results := o.results.insert u (completeLabel pre lab, elt) }

/-- zlsss.cpp:470-473, the evaluation loop: `share += *it * power(xpow, i)`. -/
def evalLoop (x : F) : List F → Nat → F → F
  | [], _, acc => acc
  | c :: cs, i, acc => evalLoop x cs (i + 1) (acc + c * x ^ i)

/-- zlsss.cpp:452-476 `evaluatePolynomial`. -/
def evaluatePolynomial (coefficients : List F) (x : Nat) : F :=
  evalLoop (x : F) coefficients 0 0

/-- zlsss.cpp:267-273: `threshold` random draws. -/
def drawCoeffs (tape : Nat → F) (pos threshold : Nat) : List F :=
  (List.range threshold).map fun i => tape (pos + i)

/-- zlsss.cpp:278-283: the (child, share) pairs in the order they are pushed. -/
def childShares (coeffs : List F) (subs : List TNode) : List (TNode × F) :=
  subs.mapIdx fun i c => (c, evaluatePolynomial coeffs (i + 1))

/-- zlsss.cpp:244-285, the sharing loop. `stk` is the pair of stacks (top first). `ndebug` says
whether `assert` is compiled out (then line 264 does not assign `threshold`). The fuel bounds the
number of iterations; `shareFuel` always suffices (`shareLoop_eq`). -/
def shareLoop (ndebug : Bool) (tape : Nat → F) :
    Nat → List (TNode × F) → Nat → LSSS F → Res (LSSS F × Nat)
  | _, [], pos, o => .ok (o, pos)
  | 0, _ :: _, _, _ => .abort
  | fuel + 1, (t, secret) :: stk, pos, o =>
    match t with
    | .leaf _ pre lab idx => do
      let o' ← addShare o pre lab idx secret
      shareLoop ndebug tape fuel stk pos o'
    | .gate _ ty thr subs =>
      let threshold := if ndebug then 0 else thresholdValue ty thr subs.length
      if threshold = 0 then
        -- line 264: assertion failure; with NDEBUG, line 275 writes to an empty vector
        if ndebug then .ub else .abort
      else
        let coeffs := (drawCoeffs tape pos threshold).set 0 secret
        shareLoop ndebug tape fuel ((childShares coeffs subs).reverse ++ stk) (pos + threshold) o

mutual
/-- Number of nodes of a tree. -/
def TNode.size : TNode → Nat
  | .leaf _ _ _ _ => 1
  | .gate _ _ _ subs => 1 + sizeL subs
/-- Number of nodes of a forest. -/
def sizeL : List TNode → Nat
  | [] => 0
  | c :: cs => c.size + sizeL cs
end

/-- zlsss.cpp:96-109, 151-164 `shareSecret`/`performSecretSharing`. `none` is a null policy
pointer (dereferenced at zlsss.cpp:156); a policy without root fails the assertion at 161. The
duplicate map is only overwritten when the policy has duplicates (156-158). Returns the object and
the number of random draws. -/
def shareSecret (ndebug : Bool) (o : LSSS F) (policy : Option Policy) (elt : F) (tape : Nat → F) :
    Res (LSSS F × Nat) :=
  match policy with
  | none => .ub
  | some p =>
    let attrCount := if p.hasDup then p.dupCount else o.attrCount
    match p.root with
    | none => if ndebug then .ub else .abort
    | some t => shareLoop ndebug tape t.size [(t, elt)] 0 { results := [], attrCount := attrCount }

/-! ## Recovery -/

/-- zlsss.cpp:407-420, the product over the first `threshold` children.
`result *= result * q` squares the running value (line 417). -/
def coeffLoop (subs : List TNode) (index : Nat) : List Nat → F → Res F
  | [], result => .ok result
  | i :: is, result =>
    if markAt subs i && (i != index) then
      let den : F := ((index + 1 : Nat) : F) - ((i + 1 : Nat) : F)
      if den = 0 then .abort
      else coeffLoop subs index is (result * (result * ((0 - ((i + 1 : Nat) : F)) / den)))
    else coeffLoop subs index is result

/-- zlsss.cpp:389-423 `calculateCoefficient`. `getSubnode(i)` is unchecked (zpolicy.cpp:235):
an index beyond the children is undefined. -/
def calculateCoefficient (subs : List TNode) (index threshold : Nat) : Res F :=
  if subs.length < threshold then .ub
  else coeffLoop subs index (List.range threshold) 1

/-- zlsss.cpp:343-359: the threshold used in recovery (THRESHOLD gates are compiled out). -/
def recoverThreshold (ty : Gate) (n : Nat) : Nat :=
  match ty with
  | .and => n
  | .or => 1
  | _ => 0

/-- zlsss.cpp:362-370: the marked children with their coefficients, in push order. -/
def childCoeffs (subs : List TNode) (threshold : Nat) (inCoeff : F) :
    List (TNode × Nat) → Res (List (TNode × F))
  | [] => .ok []
  | (c, i) :: cs =>
    if c.mark then do
      let k ← calculateCoefficient subs i threshold
      let rest ← childCoeffs subs threshold inCoeff cs
      .ok ((c, inCoeff * k) :: rest)
    else childCoeffs subs threshold inCoeff cs

/-- zlsss.cpp:323-372, the recovery loop. -/
def recoverLoop : Nat → List (TNode × F) → Bool → LSSS F → Res (Bool × LSSS F)
  | _, [], result, o => .ok (result, o)
  | 0, _ :: _, _, _ => .abort
  | fuel + 1, (t, coeff) :: stk, result, o =>
    match t with
    | .leaf _ pre lab idx => do
      let o' ← addShare o pre lab idx coeff
      recoverLoop fuel stk true o'
    | .gate _ ty _ subs => do
      let cs ← childCoeffs subs (recoverThreshold ty subs.length) coeff subs.zipIdx
      recoverLoop fuel (cs.reverse ++ stk) (result || !cs.isEmpty) o

/-- zlsss.cpp:122-140, 176-209 `recoverCoefficients`/`performCoefficientRecovery`: answer, object and
the (marked) policy tree afterwards. -/
def recoverCoefficients (S : StdSort) (ndebug : Bool) (o : LSSS F) (policy : Option Policy)
    (A : List Bytes) : Res (Bool × LSSS F × Policy) :=
  match policy with
  | none => .ub
  | some p =>
    let attrCount := if p.hasDup then p.dupCount else o.attrCount
    match p.root with
    | none => if ndebug then .ub else .abort
    | some t => do
      let t' ← scan S A t
      let p' := { p with root := some t' }
      if t'.mark then do
        let (r, o') ← recoverLoop t'.size [(t', (1 : F))] false { results := [], attrCount := attrCount }
        if r then .ok (true, o', p')
        else .ok (false, { o' with results := [] }, p')
      else .ok (false, { results := [], attrCount := attrCount }, p')

/-- zlsss.cpp:667-689 `LSSStestSecretRecovery`. -/
def testSecretRecovery (coefficients : SMap (Bytes × F)) (shares : SMap (Bytes × F)) : F :=
  shares.foldl (fun result sh =>
    match coefficients.find sh.1 with
    | some c => result + c.2 * sh.2.2
    | none => result) 0

end Abe
