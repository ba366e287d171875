import Verif.Spec.Policy
import Verif.Model.Scheme
import Mathlib.Data.Fintype.Sum
import Mathlib.Data.Fintype.Prod
/-!
# Attackers who combine group elements

The attacker of the generic bilinear group model: it sees all group elements of the public parameters, of any
number of decryption keys and of a ciphertext, may hash any name to the first group, and outputs a linear
combination (with coefficients of its choice, fixed before the random values are drawn) of pairings of elements of
the first group with elements of the second, and of target group elements. This is everything the group
operations allow: multiplying a source element by a constant or adding two of them before pairing gives nothing
more, by bilinearity.
-/
set_option autoImplicit false
namespace Abe.Scheme
variable {G1 G2 GT : Type}

/-- Where a component is found: in the public parameters, the ciphertext, or the `i`-th key. -/
inductive Loc
  | mpk (name : Bytes)
  | ct (name : Bytes)
  | key (i : Nat) (name : Bytes)
  deriving DecidableEq

/-- An element of the first group: a component, or a hashed name. -/
inductive Src
  | comp (l : Loc)
  | hash (name : Bytes)
  deriving DecidableEq

/-- What the attacker is given. -/
structure Views (G1 G2 GT : Type) where
  mpk : Container G1 G2 GT
  ct : Container G1 G2 GT
  keys : Nat → Container G1 G2 GT
  hash : Bytes → G1

/-- The component at a place. -/
def Views.at (v : Views G1 G2 GT) : Loc → Option (Obj G1 G2 GT)
  | .mpk n => SMap.find n v.mpk
  | .ct n => SMap.find n v.ct
  | .key i n => SMap.find n (v.keys i)

/-- A component as an element of the first group; what is not one counts as the neutral element. -/
def asG1 [Zero G1] : Option (Obj G1 G2 GT) → G1
  | some (.g1 x) => x
  | _ => 0
/-- A component as an element of the second group. -/
def asG2 [Zero G2] : Option (Obj G1 G2 GT) → G2
  | some (.g2 x) => x
  | _ => 0
/-- A component as an element of the target group. -/
def asGT [Zero GT] : Option (Obj G1 G2 GT) → GT
  | some (.gt x) => x
  | _ => 0

/-- The element of the first group at a place. -/
def Views.src [Zero G1] (v : Views G1 G2 GT) : Src → G1
  | .comp l => asG1 (v.at l)
  | .hash n => v.hash n

/-- A linear attack: coefficients of pairings and of target group elements. -/
structure Attack (q : Nat) where
  pairs : List (ZMod q × Src × Loc)
  targets : List (ZMod q × Loc)

variable {q : Nat} [Fact q.Prime]
variable [AddCommGroup G1] [Module (ZMod q) G1] [AddCommGroup G2] [Module (ZMod q) G2] [AddCommGroup GT]
  [Module (ZMod q) GT]

/-- What the attack computes. -/
def Attack.run (e : G1 → G2 → GT) (A : Attack q) (v : Views G1 G2 GT) : GT :=
  (A.pairs.map fun t => t.1 • e (v.src t.2.1) (asG2 (v.at t.2.2))).sum +
    (A.targets.map fun t => t.1 • asGT (v.at t.2)).sum

/-- All random values of a game: those of the parameters, of the ciphertext and of each key. `tape i` and `r i` are
the draws of the `i`-th secret sharing and of its rows, `t i` the value drawn for the `i`-th key, `h d` the exponent
of the point that the digest `d` is mapped to. -/
structure Coins (q : Nat) where
  alpha : ZMod q
  a : ZMod q
  s : ZMod q
  tape : Nat → Nat → ZMod q
  r : Nat → Nat → ZMod q
  t : Nat → ZMod q
  h : Bytes → ZMod q

/-- Names of finitely many random values: `alpha`, `a`, `s`; `T` draws and `R` row values for each of `m` sharings; `n`
key values; the points of the digests in `ds`. -/
abbrev CoinIx (m T R n : Nat) (ds : Finset Bytes) : Type :=
  Fin 3 ⊕ (Fin m × Fin T) ⊕ (Fin m × Fin R) ⊕ Fin n ⊕ ds

/-- The coins with given values; all others are zero. -/
def Coins.of {m T R n : Nat} {ds : Finset Bytes} (x : CoinIx m T R n ds → ZMod q) : Coins q where
  alpha := x (.inl 0)
  a := x (.inl 1)
  s := x (.inl 2)
  tape i j := if h : i < m ∧ j < T then x (.inr (.inl (⟨i, h.1⟩, ⟨j, h.2⟩))) else 0
  r i j := if h : i < m ∧ j < R then x (.inr (.inr (.inl (⟨i, h.1⟩, ⟨j, h.2⟩)))) else 0
  t i := if h : i < n then x (.inr (.inr (.inr (.inl ⟨i, h⟩)))) else 0
  h d := if h : d ∈ ds then x (.inr (.inr (.inr (.inr ⟨d, h⟩)))) else 0

/-- The map to the curve as a random oracle: the digest `d` is mapped to `h d` times the generator. -/
def oracle (env : Env G1 G2 GT) (h : Bytes → ZMod q) (g1 : G1) : Env G1 G2 GT :=
  { env with g1map := fun d => h d • g1 }

/-- What does not depend on the coins: the surroundings, a context whose curve is initialised, the generators, the
hash key, the names of the two master keys. -/
structure Game (G1 G2 GT : Type) where
  env : Env G1 G2 GT
  ctx : Ctx G1 G2 GT
  g1 : G1
  g2 : G2
  k : Bytes
  mpkID : Bytes
  mskID : Bytes
  uid : Bytes

/-- The surroundings with the random oracle. -/
def Game.envOf (g : Game G1 G2 GT) (w : Coins q) : Env G1 G2 GT := oracle g.env w.h g.g1

/-- The draws of `generateParams`. -/
def Game.params (g : Game G1 G2 GT) (w : Coins q) : ParamRand q G1 G2 :=
  ⟨g.g1, g.g2, w.alpha, w.a, g.k, g.uid, g.uid⟩

/-- The draws of the `i`-th use of a policy. -/
def Coins.draws (w : Coins q) (i : Nat) (x : ZMod q) (uid : Bytes) : Rand q := ⟨x, w.tape i, w.r i, uid⟩

/-- The group element the session key is derived from. -/
def Game.secret (g : Game G1 G2 GT) (w : Coins q) : GT := w.s • w.alpha • g.env.e g.g1 g.g2

/-- `v` is what an attacker sees of the ciphertext-policy scheme: the code generated the parameters, one key for each
of the attribute lists, and a ciphertext for the policy, with the given random values. -/
def CpGame (g : Game G1 G2 GT) (p : Policy) (als : List AttrList) (w : Coins q) (v : Views G1 G2 GT) : Prop :=
  ∃ mpk msk key ct, cpParams (g.envOf w) (g.params w) = .ok (mpk.comps, msk.comps) ∧ v.mpk = mpk.comps ∧
    (∀ i al, als[i]? = some al → cpKeyBody (g.envOf w) g.ctx mpk msk al (w.t i) = .ok (v.keys i)) ∧
    (∀ i, als.length ≤ i → v.keys i = []) ∧
    cpEncBody (g.envOf w) g.ctx mpk p symKeyBytes (w.draws 0 w.s g.uid) {} = .ok (key, ct) ∧ v.ct = ct.comps ∧
    symKeyOf g.env (g.secret w) symKeyBytes = .ok key ∧ v.hash = hashToG1 (g.envOf w) g.k

/-- `v` is what an attacker sees of the key-policy scheme: one key for each of the policies and a ciphertext for the
attribute list. -/
def KpGame (g : Game G1 G2 GT) (al : AttrList) (ps : List Policy) (w : Coins q) (v : Views G1 G2 GT) : Prop :=
  ∃ mpk msk key ct, kpParams (g.envOf w) (g.params w) = .ok (mpk.comps, msk.comps) ∧ v.mpk = mpk.comps ∧
    (∀ i p, ps[i]? = some p → kpKeyBody (g.envOf w) g.ctx mpk msk p (w.tape i) (w.r i) = .ok (v.keys i)) ∧
    (∀ i, ps.length ≤ i → v.keys i = []) ∧
    kpEncBody (g.envOf w) g.ctx mpk al symKeyBytes (w.draws 0 w.s g.uid) {} = .ok (key, ct) ∧ v.ct = ct.comps ∧
    symKeyOf g.env (g.secret w) symKeyBytes = .ok key ∧ v.hash = hashToG1 (g.envOf w) g.k

/-- No two of the names are hashed to the same point. -/
def NoDigestClash (g : Game G1 G2 GT) (names : List Bytes) : Prop :=
  ∀ x ∈ names, ∀ y ∈ names, g.env.md (g.k ++ x) = g.env.md (g.k ++ y) → x = y

/-- The attribute names at the leaves of a policy. -/
def policyNames (p : Policy) : List Bytes :=
  match p.root with
  | some t => (leaves t).map Leaf.label
  | none => []

/-- The random values of the game cover a policy: enough draws and row values, and the points of its attributes. -/
def Covers (g : Game G1 G2 GT) (q : Nat) [Fact q.Prime] (T R : Nat) (ds : Finset Bytes) (p : Policy) : Prop :=
  (∀ (s : ZMod q) tape o k, shareSecret false {} (some p) s tape = .ok (o, k) → k ≤ T) ∧
    (policyNames p).length ≤ R ∧ ∀ x ∈ policyNames p, g.env.md (g.k ++ x) ∈ ds

/-- The field is larger than the tree of the policy. -/
def SmallerThan (q : Nat) (p : Policy) : Prop := ∀ t, p.root = some t → t.size < q

end Abe.Scheme
