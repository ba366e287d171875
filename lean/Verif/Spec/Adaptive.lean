import Verif.Spec.Attack
/-!
# Adaptive attackers in the generic group model

What it means that session keys look random to attackers who use the groups only through their operations. The
attacker of this file asks for keys and for one ciphertext, in any order, and tests any linear relations between
what it holds; everything it does may depend on the answers so far. Handles of group elements tell it nothing but which
of them are equal, and equality of two combinations is what a question asks, so nothing else can influence it.

Not covered: attackers that use the representation of group elements, and everything after the derivation of the
session key from the group element.
-/
set_option autoImplicit false
namespace Abe.Scheme
variable {G1 G2 GT : Type} {q : Nat}

/-- A question: is a given linear combination of elements of one of the groups zero? In the target group pairings of
elements of the other two may be used, and the challenge `K` with coefficient `b`. -/
inductive Query (q : Nat) where
  | g1 (l : List (ZMod q × Src))
  | g2 (l : List (ZMod q × Loc))
  | gt (A : Attack q) (b : ZMod q)

/-- An attacker: what it does next, depending on the answers. `κ` is what keys are asked for, `χ` what the ciphertext
is asked for. In the end it guesses a bit. -/
inductive Adv (q : Nat) (κ χ : Type) where
  | guess (b : Bool)
  | key (x : κ) (next : Adv q κ χ)
  | challenge (y : χ) (next : Adv q κ χ)
  | ask (Q : Query q) (yes no : Adv q κ χ)

variable {κ χ : Type}

/-- The number of questions asked in the worst case. -/
def Adv.questions : Adv q κ χ → Nat
  | .guess _ => 0
  | .key _ next => next.questions
  | .challenge _ next => next.questions
  | .ask _ yes no => max yes.questions no.questions + 1

/-- The requests are allowed: `Fair` says what may be held together, and there is only one challenge. -/
def Adv.Admissible (Fair : Option χ → List κ → Prop) : Option χ → List κ → Adv q κ χ → Prop
  | _, _, .guess _ => True
  | ch, ks, .key x next => Fair ch (ks ++ [x]) ∧ Adv.Admissible Fair ch (ks ++ [x]) next
  | ch, ks, .challenge y next => ch = none ∧ Fair (some y) ks ∧ Adv.Admissible Fair (some y) ks next
  | ch, ks, .ask _ yes no => Adv.Admissible Fair ch ks yes ∧ Adv.Admissible Fair ch ks no

variable [Fact q.Prime]
variable [AddCommGroup G1] [Module (ZMod q) G1] [AddCommGroup G2] [Module (ZMod q) G2] [AddCommGroup GT]
  [Module (ZMod q) GT]

/-- The answer is yes. -/
def Query.holds (e : G1 → G2 → GT) (v : Views G1 G2 GT) (K : GT) : Query q → Prop
  | .g1 l => (l.map fun t => t.1 • v.src t.2).sum = 0
  | .g2 l => (l.map fun t => t.1 • asG2 (v.at t.2)).sum = 0
  | .gt A b => A.run e v + b • K = 0

/-- `Plays Seen e K ch ks A b`: having asked for the ciphertext `ch`, if any, and the keys `ks`, the attacker `A` will
guess `b` if the challenge is `K`. `Seen` gives what is seen of keys and ciphertext; before the ciphertext is given the
challenge is not given either (it counts as the neutral element). -/
inductive Plays (Seen : Option χ → List κ → Views G1 G2 GT → Prop) (e : G1 → G2 → GT) (K : GT) :
    Option χ → List κ → Adv q κ χ → Bool → Prop
  | guess (ch ks b) : Plays Seen e K ch ks (.guess b) b
  | key {ch ks x next b} : Plays Seen e K ch (ks ++ [x]) next b → Plays Seen e K ch ks (.key x next) b
  | challenge {ks y next b} : Plays Seen e K (some y) ks next b → Plays Seen e K none ks (.challenge y next) b
  | yes {ch ks Q yes no b v} : Seen ch ks v → Q.holds e v (if ch.isSome then K else 0) →
      Plays Seen e K ch ks yes b → Plays Seen e K ch ks (.ask Q yes no) b
  | no {ch ks Q yes no b v} : Seen ch ks v → ¬ Q.holds e v (if ch.isSome then K else 0) →
      Plays Seen e K ch ks no b → Plays Seen e K ch ks (.ask Q yes no) b

/-- What is seen of the ciphertext-policy scheme: parameters, keys and, once asked for, the ciphertext. -/
def CpSeen (g : Game G1 G2 GT) (w : Coins q) : Option Policy → List AttrList → Views G1 G2 GT → Prop
  | some p, als, v => CpGame g p als w v
  | none, als, v => ∃ mpk msk, cpParams (g.envOf w) (g.params w) = .ok (mpk.comps, msk.comps) ∧ v.mpk = mpk.comps ∧
    (∀ i al, als[i]? = some al → cpKeyBody (g.envOf w) g.ctx mpk msk al (w.t i) = .ok (v.keys i)) ∧
    (∀ i, als.length ≤ i → v.keys i = []) ∧ v.ct = [] ∧ v.hash = hashToG1 (g.envOf w) g.k

/-- What is seen of the key-policy scheme. -/
def KpSeen (g : Game G1 G2 GT) (w : Coins q) : Option AttrList → List Policy → Views G1 G2 GT → Prop
  | some al, ps, v => KpGame g al ps w v
  | none, ps, v => ∃ mpk msk, kpParams (g.envOf w) (g.params w) = .ok (mpk.comps, msk.comps) ∧ v.mpk = mpk.comps ∧
    (∀ i p, ps[i]? = some p → kpKeyBody (g.envOf w) g.ctx mpk msk p (w.tape i) (w.r i) = .ok (v.keys i)) ∧
    (∀ i, ps.length ≤ i → v.keys i = []) ∧ v.ct = [] ∧ v.hash = hashToG1 (g.envOf w) g.k

/-- Ciphertext-policy attackers may ask for a policy the library accepts and for attribute lists that do not satisfy
it; names with clashing digests are excluded, and the supply of random values must suffice. -/
def CpFair (g : Game G1 G2 GT) (q : Nat) [Fact q.Prime] (T R n : Nat) (ds : Finset Bytes) (ch : Option Policy)
    (als : List AttrList) : Prop :=
  als.length ≤ n ∧ ∀ p, ch = some p → (∃ s, createPolicyTree g.env.mktime s = .ok (some p)) ∧ SmallerThan q p ∧
    Covers g q T R ds p ∧ NoDigestClash g (policyNames p ++ als.flatMap AttrList.attrs) ∧
    ∀ al ∈ als, ¬ Satisfies al.attrs p

/-- Key-policy attackers may ask for keys for policies the library accepts and for an attribute list that satisfies
none of them. -/
def KpFair (g : Game G1 G2 GT) (q : Nat) [Fact q.Prime] (m T R : Nat) (ds : Finset Bytes) (ch : Option AttrList)
    (ps : List Policy) : Prop :=
  ps.length ≤ m ∧ (∀ p ∈ ps, (∃ s, createPolicyTree g.env.mktime s = .ok (some p)) ∧ SmallerThan q p ∧
    Covers g q T R ds p) ∧
    ∀ al, ch = some al → NoDigestClash g (ps.flatMap policyNames ++ al.attrs) ∧ ∀ p ∈ ps, ¬ Satisfies al.attrs p

end Abe.Scheme
