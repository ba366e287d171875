import Verif.Proof.ParserRun
import Verif.Proof.DriverFacts
/-!
# What the parser accepts is derivable

A ghost stack records for every state on the stack the tokens that were read for it. The tables are
checked once: every way back from a reducing state carries the right-hand side of its rule.
-/
set_option linter.unusedSimpArgs false
set_option linter.unusedSectionVars false
set_option autoImplicit false
namespace Abe

variable {mk : Mktime}

/-! ### The automaton -/

/-- Accessing symbol of a state. -/
def stos (s : Nat) : Nat := (yyStos.getD s 0).toNat

/-- Transitions: shifts for terminals, and gotos from the states where the nonterminal is expected. -/
def trans (s x : Nat) : Option Nat :=
  if x ≤ 30 then (yyLook s x).map Int.toNat
  else if x = 32 then (if s = 0 then some 3 else none)
  else if x = 33 then (if yyLook s 5 = some 24 then some (yyGoto s 33) else none)
  else if x = 34 then (if yyLook s 4 = some 4 then some (yyGoto s 34) else none)
  else if x = 35 then (if yyLook s 4 = some 7 then some (yyGoto s 35) else none)
  else none

/-- Right-hand sides, last symbol first (include/lsss/zparser.yy:112-185). -/
def rhsRev (r : Nat) : List Nat :=
  match r with
  | 2 => [34, 17]
  | 3 => [35, 18]
  | 4 => [5, 20, 5]
  | 5 => [5]
  | 6 => [4]
  | 7 => [34, 9, 34]
  | 8 => [34, 10, 34]
  | 9 => [33, 21, 4]
  | 10 => [33, 22, 4]
  | 11 => [33, 14, 4]
  | 12 => [33, 15, 4]
  | 13 => [33, 12, 4]
  | 14 => [24, 34, 23]
  | 15 => [24, 33, 25, 33, 23, 19, 4]
  | 16 => [27, 33, 25, 33, 26, 19, 4]
  | 17 => [33, 29, 33, 4, 28, 4]
  | 18 => [33, 29, 33, 25, 33, 4, 28, 4]
  | 19 => [33, 29, 33, 4, 22, 4]
  | 20 => [33, 29, 33, 4, 21, 4]
  | 21 => [33, 29, 33, 4, 15, 4]
  | 22 => [33, 29, 33, 4, 14, 4]
  | 23 => [4]
  | 24 => [35, 30]
  | 25 => [30, 35]
  | 26 => [35, 30, 35]
  | 27 => [33, 28, 4]
  | 28 => [33, 29, 33, 4, 28, 4]
  | _ => []

/-- All states. -/
def states : List Nat := List.range 75

/-- Every way back from state `s` reads the symbols `xs` and ends in a state with a transition on `a`. -/
def back (a : Nat) : List Nat → Nat → Bool
  | [], s => (trans s a).isSome
  | x :: xs, s => decide (stos s = x) && states.all (fun s' => !decide (trans s' x = some s) || back a xs s')

theorem back_ok : (states.all fun s => decide (s = 10) || decide ((yyDefact.getD s 0).toNat = 0) ||
    (back (yyR1.getD (yyDefact.getD s 0).toNat 0).toNat (rhsRev (yyDefact.getD s 0).toNat) s &&
      decide ((yyR2.getD (yyDefact.getD s 0).toNat 0).toNat = (rhsRev (yyDefact.getD s 0).toNat).length) &&
      decide (2 ≤ (yyDefact.getD s 0).toNat) && decide ((yyDefact.getD s 0).toNat ≤ 28))) = true := by
  decide +kernel

theorem look_ok : (states.all fun s => (List.range 31).all fun x =>
    match yyLook s x with
    | none => true
    | some n => decide (0 < n) && decide (n < 75) && decide (stos n.toNat = x) && decide (x ≠ 1 ∧ x ≠ 2 ∧ x ≠ 3 ∧ x ≠ 6 ∧ x ≠ 7 ∧
        x ≠ 8 ∧ x ≠ 11 ∧ x ≠ 13 ∧ x ≠ 16) && decide (x = 0 ↔ n = 10) && decide (n = 10 → s = 3) &&
        decide (n ≠ 3) && decide (n = 23 ↔ x = 30 ∧ (s = 9 ∨ s = 22 ∨ s = 42))) = true := by
  decide +kernel

theorem goto_ok : (states.all fun s => (List.range 36).all fun x =>
    match trans s x with
    | none => true
    | some n => decide (n < 75) && decide (stos n = x) && decide (0 < n) &&
      (decide (x ≤ 30) || (decide (n = yyGoto s x) && decide (n ≠ 10) && decide (n ≠ 23) &&
        decide (n = 3 ↔ x = 32)))) = true := by
  decide +kernel

theorem look_facts {s x : Nat} {n : Int} (hs : s < 75) (hx : x ≤ 30) (h : yyLook s x = some n) :
    0 < n ∧ n.toNat < 75 ∧ stos n.toNat = x ∧ (x ≠ 1 ∧ x ≠ 2 ∧ x ≠ 3 ∧ x ≠ 6 ∧ x ≠ 7 ∧ x ≠ 8 ∧ x ≠ 11 ∧ x ≠ 13 ∧
      x ≠ 16) ∧ (x = 0 ↔ n.toNat = 10) ∧ (n.toNat = 10 → s = 3) ∧ n.toNat ≠ 3 ∧
      (n.toNat = 23 ↔ x = 30 ∧ (s = 9 ∨ s = 22 ∨ s = 42)) := by
  have h1 := List.all_eq_true.mp look_ok s (by simp [states]; omega)
  have h2 := List.all_eq_true.mp h1 x (by simp; omega)
  rw [h] at h2
  simp only [Bool.and_eq_true, decide_eq_true_eq] at h2
  obtain ⟨⟨⟨⟨⟨⟨⟨a, b⟩, c⟩, e⟩, f⟩, g⟩, i⟩, j⟩ := h2
  have hn : n.toNat = n := Int.toNat_of_nonneg (by omega)
  refine ⟨a, by omega, c, e, ?_, ?_, ?_, ?_⟩
  · rw [f]; omega
  · intro hh; exact g (by omega)
  · omega
  · rw [← j]; omega

theorem goto_facts {s x n : Nat} (hs : s < 75) (hx : x ≤ 35) (h : trans s x = some n) :
    n < 75 ∧ stos n = x ∧ 0 < n ∧ (30 < x → n = yyGoto s x ∧ n ≠ 10 ∧ n ≠ 23 ∧ (n = 3 ↔ x = 32)) := by
  have h1 := List.all_eq_true.mp goto_ok s (by simp [states]; omega)
  have h2 := List.all_eq_true.mp h1 x (by simp; omega)
  rw [h] at h2
  simp only [Bool.and_eq_true, Bool.or_eq_true, decide_eq_true_eq] at h2
  obtain ⟨⟨⟨a, b⟩, c⟩, e⟩ := h2
  refine ⟨a, b, c, fun hx' => ?_⟩
  rcases e with e | ⟨⟨⟨e1, e2⟩, e3⟩, e4⟩
  · omega
  · exact ⟨e1, e2, e3, e4⟩

theorem back_facts {s r : Nat} (hs : s < 75) (h10 : s ≠ 10) (hr : (yyDefact.getD s 0).toNat = r) (r0 : r ≠ 0) :
    back (yyR1.getD r 0).toNat (rhsRev r) s = true ∧ (yyR2.getD r 0).toNat = (rhsRev r).length ∧ 2 ≤ r ∧ r ≤ 28 := by
  have h1 := List.all_eq_true.mp back_ok s (by simp [states]; omega)
  rw [hr] at h1
  simp only [Bool.and_eq_true, Bool.or_eq_true, decide_eq_true_eq] at h1
  rcases h1 with (h1 | h1) | ⟨⟨⟨a, b⟩, c⟩, d⟩
  · exact absurd h1 h10
  · exact absurd h1 r0
  · exact ⟨a, b, c, d⟩

/-! ### Ghost stack -/

/-- A stack entry with the tokens read for it. -/
structure GEnt where
  st : Nat
  val : SVal
  seg : List Tok

/-- The tokens of the symbols that are fixed. -/
def tokOf (x : Nat) : Option Tok :=
  match x with
  | 9 => some .or
  | 10 => some .and
  | 12 => some .eq
  | 14 => some .leq
  | 15 => some .geq
  | 17 => some .startPolicy
  | 18 => some .startAttr
  | 19 => some .inn
  | 20 => some (.chr 35)
  | 21 => some (.chr 60)
  | 22 => some (.chr 62)
  | 23 => some (.chr 40)
  | 24 => some (.chr 41)
  | 25 => some (.chr 45)
  | 26 => some (.chr 123)
  | 27 => some (.chr 125)
  | 28 => some (.chr 61)
  | 29 => some (.chr 44)
  | 30 => some (.chr 124)
  | _ => none

/-- A value and the tokens it was built from belong to the symbol. -/
inductive SymOk : Nat → SVal → List Tok → Prop
  | leaf {s} : isName s = true → SymOk 4 (.str s) [.leaf s]
  | uint {n} : TokOk (.uint n) → SymOk 5 (.uint n) [.uint n]
  | fixed {x t} : tokOf x = some t → SymOk x .none [t]
  | eofNone : SymOk 0 .none []
  | eofTok {t v} : t.sym = 0 → SymOk 0 v [t]
  | num {n : NumSyn} : n.valid = true → NumOk n.val → SymOk 33 (.num n.val) n.toks
  | pol {e : Expr} {t} : e.valid = true → SymOk 34 (.tree t) e.toks
  | item {i : Item} {l} : i.valid = true → SymOk 35 (.attrs l) i.toks
  | list {a : AExpr} {l} : a.valid = true → a.canon = true → SymOk 35 (.attrs (some l)) a.toks
  | startP {e : Expr} : e.valid = true → SymOk 32 .none (.startPolicy :: e.toks)
  | startA {a : AExpr} : a.valid = true → a.canon = true → SymOk 32 .none (.startAttr :: a.toks)

theorem SymOk.inv4 {v seg} (h : SymOk 4 v seg) : ∃ s, isName s = true ∧ v = .str s ∧ seg = [.leaf s] := by
  cases h with
  | leaf h => exact ⟨_, h, rfl, rfl⟩
  | fixed h => simp [tokOf] at h

theorem SymOk.inv5 {v seg} (h : SymOk 5 v seg) : ∃ n, TokOk (.uint n) ∧ v = .uint n ∧ seg = [.uint n] := by
  cases h with
  | uint h => exact ⟨_, h, rfl, rfl⟩
  | fixed h => simp [tokOf] at h

theorem SymOk.inv33 {v seg} (h : SymOk 33 v seg) :
    ∃ n : NumSyn, n.valid = true ∧ NumOk n.val ∧ v = .num n.val ∧ seg = n.toks := by
  cases h with
  | num h h' => exact ⟨_, h, h', rfl, rfl⟩
  | fixed h => simp [tokOf] at h

theorem SymOk.inv34 {v seg} (h : SymOk 34 v seg) :
    ∃ (e : Expr) (t : TNode), e.valid = true ∧ v = .tree t ∧ seg = e.toks := by
  cases h with
  | pol h => exact ⟨_, _, h, rfl, rfl⟩
  | fixed h => simp [tokOf] at h

theorem SymOk.inv35 {v seg} (h : SymOk 35 v seg) :
    ∃ (a : AExpr) (l : Option (List Bytes)), a.valid = true ∧ a.canon = true ∧ v = .attrs l ∧ seg = a.toks := by
  cases h with
  | item h => exact ⟨.item _, _, h, rfl, rfl, rfl⟩
  | list h h' => exact ⟨_, _, h, h', rfl, rfl⟩
  | fixed h => simp [tokOf] at h

theorem SymOk.inv32 {v seg} (h : SymOk 32 v seg) :
    (∃ e : Expr, e.valid = true ∧ seg = .startPolicy :: e.toks) ∨
      ∃ a : AExpr, a.valid = true ∧ a.canon = true ∧ seg = .startAttr :: a.toks := by
  cases h with
  | startP h => exact Or.inl ⟨_, h, rfl⟩
  | startA h h' => exact Or.inr ⟨_, h, h', rfl⟩
  | fixed h => simp [tokOf] at h

theorem SymOk.invFixed {x v seg t} (h : SymOk x v seg) (ht : tokOf x = some t) : seg = [t] := by
  cases h with
  | fixed h => rw [ht] at h; cases h; rfl
  | _ => simp [tokOf] at ht

theorem SymOk.invVal {x v seg t} (h : SymOk x v seg) (ht : tokOf x = some t) : v = .none := by
  cases h with
  | fixed h => rfl
  | _ => simp [tokOf] at ht

/-- Tokens of a sequence of entries, the last one first. -/
def segsOf : List GEnt → List Tok
  | [] => []
  | g :: P => segsOf P ++ g.seg

theorem segsOf_append : ∀ P Q, segsOf (P ++ Q) = segsOf Q ++ segsOf P
  | [], Q => by simp [segsOf]
  | g :: P, Q => by simp [segsOf, segsOf_append P Q]

/-- The entries carry the given symbols. -/
def Segs : List GEnt → List Nat → Prop
  | [], [] => True
  | g :: P, x :: xs => SymOk x g.val g.seg ∧ Segs P xs
  | _, _ => False

theorem segs_nil {P : List GEnt} : Segs P [] ↔ P = [] := by cases P <;> simp [Segs]

theorem segs_cons {P : List GEnt} {x : Nat} {xs : List Nat} :
    Segs P (x :: xs) ↔ ∃ g P', P = g :: P' ∧ SymOk x g.val g.seg ∧ Segs P' xs := by
  cases P with
  | nil => simp [Segs]
  | cons g P => simp [Segs]

/-- The tokens are those of one item. -/
def IsItem (seg : List Tok) : Prop := ∃ i : Item, i.valid = true ∧ seg = i.toks

/-- Entries that count as parsed attributes. -/
def isBig (g : GEnt) : Prop := stos g.st = 34 ∨ stos g.st = 35 ∨ stos g.st = 32

/-- Well-formed ghost stacks, top first. -/
def GOk : List GEnt → Prop
  | [] => False
  | [g] => g.st = 0 ∧ g.seg = []
  | g :: g' :: r => g.st < 75 ∧ trans g'.st (stos g.st) = some g.st ∧ SymOk (stos g.st) g.val g.seg ∧
      (g.st = 23 → IsItem g'.seg) ∧ (g.val = .attrs none → ∃ h ∈ g' :: r, isBig h) ∧ GOk (g' :: r)

theorem GOk.lt {g : GEnt} {r : List GEnt} (h : GOk (g :: r)) : g.st < 75 := by
  cases r with
  | nil => simp [GOk] at h; omega
  | cons g' r => exact h.1

theorem stos_le : ∀ s, s < 75 → stos s ≤ 35 := by decide +kernel

/-- The entries below a reducing state carry the right-hand side. -/
theorem back_spec {a : Nat} : ∀ (xs : List Nat) (G : List GEnt) (g : GEnt) (r : List GEnt), G = g :: r → GOk G →
    back a xs g.st = true → (∀ x ∈ xs, x ≠ 0) →
    ∃ P g0 R, G = P ++ g0 :: R ∧ P.map (fun g => stos g.st) = xs ∧ Segs P xs ∧ (trans g0.st a).isSome ∧ GOk (g0 :: R)
  | [], G, g, r, hG, hok, hb, _ => ⟨[], g, r, by simp [hG], rfl, trivial, hb, hG ▸ hok⟩
  | x :: xs, G, g, r, hG, hok, hb, hx => by
    subst hG
    simp only [back, Bool.and_eq_true, decide_eq_true_eq] at hb
    cases r with
    | nil =>
      exfalso
      simp only [GOk] at hok
      have : stos 0 = 0 := by decide
      rw [hok.1, this] at hb
      exact hx x (by simp) hb.1.symm
    | cons g' r =>
      have hlt : g'.st < 75 := GOk.lt hok.2.2.2.2.2
      have h1 := List.all_eq_true.mp hb.2 g'.st (by simp [states]; omega)
      simp only [Bool.or_eq_true, Bool.not_eq_true', decide_eq_false_iff_not] at h1
      have h2 : back a xs g'.st = true := by
        rcases h1 with h1 | h1
        · exact absurd (hb.1 ▸ hok.2.1) h1
        · exact h1
      obtain ⟨P, g0, R, e1, e2, e3, e4, e5⟩ := back_spec xs (g' :: r) g' r rfl hok.2.2.2.2.2 h2
        (fun y hy => hx y (List.mem_cons_of_mem _ hy))
      refine ⟨g :: P, g0, R, by rw [e1]; rfl, by simp [e2, hb.1], ⟨?_, e3⟩, e4, e5⟩
      rw [← hb.1]
      exact hok.2.2.1

/-! ### The semantic actions -/

/-- Outcome of a semantic action that keeps the parser's invariant. -/
def ActGood (mk : Mktime) (r : Nat) (P : List GEnt) (d : Drv) : Res (Option (SVal × Drv)) → Prop
  | .ok (some x) => SymOk (yyR1.getD r 0).toNat x.1 (segsOf P) ∧ (r ≠ 2 → r ≠ 3 → SameOut d x.2) ∧
      (r = 4 ∨ r = 5 → x.2 = d) ∧ (x.1 = .attrs none → r = 23 ∧ d.attrCount ≠ []) ∧
      (r = 23 ∨ r = 27 ∨ r = 28 → IsItem (segsOf P)) ∧ x.2.isPolicy = d.isPolicy
  | .ok none => r = 4
  | .ub => (∃ c : CondSyn, c.valid = true ∧ segsOf P = c.toks ∧ c.BadDate mk) ∨ (r = 3 ∧ ∃ g ∈ P, g.val = .attrs none)
  | .throw _ => False
  | .abort => False

theorem numOk_exp {n b : UInt32} (hn : TokOk (.uint n)) (hv : checkValidBit n b = true) :
    NumOk (createExpint n b) := by
  obtain ⟨hb, hle⟩ := (checkValidBit_iff n b).mp hv
  have hb' : b.toNat % 65536 = b.toNat := by rcases hb with h | h | h | h <;> omega
  refine ⟨?_, ?_, hn.1, hn.2⟩
  · simp only [createExpint, hb']; exact hb
  · simp only [createExpint, hb']
    have : 0 < 2 ^ b.toNat := Nat.pos_of_ne_zero (by simp)
    omega

theorem numOk_flex {n : UInt32} (hn : TokOk (.uint n)) : NumOk (createFlexint n) :=
  ⟨Or.inr (Or.inr (Or.inr rfl)), by have := n.toNat_lt; simpa [createFlexint] using this, hn.1, hn.2⟩

theorem actGood_tree {r : Nat} {P : List GEnt} {d : Drv} {R : Res (TNode × Drv)} {e : Expr}
    (h34 : (yyR1.getD r 0).toNat = 34) (h2 : r ≠ 2 ∧ r ≠ 3 ∧ r ≠ 4 ∧ r ≠ 5 ∧ r ≠ 23 ∧ r ≠ 27 ∧ r ≠ 28)
    (he : e.valid = true) (hseg : segsOf P = e.toks)
    (hok : ∀ t d', R = .ok (t, d') → SameOut d d')
    (hub : (∃ t d', R = .ok (t, d')) ∨
      (R = .ub ∧ ∃ c : CondSyn, c.valid = true ∧ segsOf P = c.toks ∧ c.BadDate mk)) :
    ActGood mk r P d (treeAct R) := by
  rcases hub with ⟨t, d', h⟩ | ⟨h, hm⟩
  · have hs := hok t d' h
    subst h
    show ActGood mk r P d (.ok (some (.tree t, d')))
    refine ⟨?_, fun _ _ => hs, ?_, ?_, ?_, hs.2.2.1⟩
    · rw [h34, hseg]; exact SymOk.pol he
    · rintro (h | h) <;> omega
    · intro h; cases h
    · rintro (h | h | h) <;> omega
  · subst h
    exact Or.inl hm

theorem compile_same {d d' : Drv} {base : Bytes} {c : NumCond} {t : TNode} (hn : ∀ n ∈ c.nums, Width n.bits)
    (h : c.compile d base = .ok (t, d')) : SameOut d d' := by
  obtain ⟨cs, hb, _⟩ := compile_built_any hn h
  exact built_same hb

/-- A numeric condition never throws or aborts. -/
theorem leafNode_cases (d : Drv) (c : Bytes) : (∃ t d', leafNode d c = .ok (t, d')) ∨ leafNode d c = .ub := by
  unfold leafNode checkAttribute
  split
  · cases split 58 c with
    | nil => right; rfl
    | cons p r => left; exact ⟨_, _, rfl⟩
  · left; exact ⟨_, _, rfl⟩

theorem cmp32_cases (d : Drv) (base : Bytes) (v : UInt32) (gt : Bool) :
    (∃ t d', cmpPolicy d ⟨v, 32⟩ gt base = .ok (t, d')) ∨ cmpPolicy d ⟨v, 32⟩ gt base = .ub := by
  by_cases h : v = if gt then 0xffffffff else 0
  · right
    have hun : cmpPolicy d ⟨v, 32⟩ gt base = bitMarkerList d false gt base 32 v := by
      simp [cmpPolicy]
    rw [hun]
    unfold bitMarkerList
    cases hj : runEnd gt v.toNat 32 0 with
    | none => rfl
    | some j =>
      exfalso
      have hs := runEnd_spec _ _ _ _ _ hj
      have h3 := hs.2.2.1
      subst h
      cases gt with
      | true =>
        have : (4294967295 : Nat).testBit j = true := by
          rw [show (4294967295 : Nat) = 2 ^ 32 - 1 from rfl, Nat.testBit_two_pow_sub_one]
          simp; omega
        simp [this] at h3
      | false => simp at h3
  · left
    exact cmpPolicy_ok d base (Or.inr (Or.inr (Or.inr rfl))) v gt h

/-- A condition on 32-bit numbers returns or is undefined. -/
theorem compile32_cases (d : Drv) (base : Bytes) (c : NumCond) (hn : ∀ n ∈ c.nums, n.bits = 32) :
    (∃ t d', c.compile d base = .ok (t, d')) ∨ c.compile d base = .ub := by
  have mkn : ∀ n : UInteger, n.bits = 32 → n = ⟨n.val, 32⟩ := fun n h => by cases n; simp at h; subst h; rfl
  have hc : ∀ d (n : UInteger) gt, n.bits = 32 →
      (∃ t d', cmpPolicy d n gt base = .ok (t, d')) ∨ cmpPolicy d n gt base = .ub := fun d n gt h => by
    rw [mkn n h]; exact cmp32_cases d base _ gt
  cases c with
  | lt n => exact hc d n _ (hn n (by simp [NumCond.nums]))
  | gt n => exact hc d n _ (hn n (by simp [NumCond.nums]))
  | le n => exact hc d n.add1 _ (hn n (by simp [NumCond.nums]))
  | ge n => exact hc d n.sub1 _ (hn n (by simp [NumCond.nums]))
  | eq n =>
    left
    refine eqPolicy_ok d base ?_ n.val
    have := hn n (by simp [NumCond.nums]); omega
  | inOpen lo hi =>
    simp only [NumCond.compile, rangePolicy]
    rcases hc d lo true (hn lo (by simp [NumCond.nums])) with ⟨t1, d1, h1⟩ | h1
    · rcases hc d1 hi false (hn hi (by simp [NumCond.nums])) with ⟨t2, d2, h2⟩ | h2
      · left; exact ⟨.gate {} .and 2 [t1, t2], d2, by simp only [gtPolicy, ltPolicy, h1, h2, Res.ok_bind]⟩
      · right; simp only [gtPolicy, ltPolicy, h1, h2, Res.ok_bind, Res.ub_bind]
    · right; simp only [gtPolicy, h1, Res.ub_bind]
  | inClosed lo hi =>
    simp only [NumCond.compile, rangeInclPolicy]
    rcases hc d lo.sub1 true (hn lo (by simp [NumCond.nums])) with ⟨t1, d1, h1⟩ | h1
    · rcases hc d1 hi.add1 false (hn hi (by simp [NumCond.nums])) with ⟨t2, d2, h2⟩ | h2
      · left; exact ⟨.gate {} .and 2 [t1, t2], d2, by simp only [gePolicy, lePolicy, h1, h2, Res.ok_bind]⟩
      · right; simp only [gePolicy, lePolicy, h1, h2, Res.ok_bind, Res.ub_bind]
    · right; simp only [gePolicy, h1, Res.ub_bind]

/-- The numbers of a condition: scanned ones, or days of 32 bits. -/
theorem CondSyn.actGood {r : Nat} {P : List GEnt} {d : Drv} (c : CondSyn)
    (h34 : (yyR1.getD r 0).toNat = 34) (h2 : r ≠ 2 ∧ r ≠ 3 ∧ r ≠ 4 ∧ r ≠ 5 ∧ r ≠ 23 ∧ r ≠ 27 ∧ r ≠ 28)
    (hv : c.valid = true) (hseg : segsOf P = c.toks)
    (hn : (∀ n ∈ (c.cond mk).nums, NumOk n) ∨
      ((∀ n ∈ (c.cond mk).nums, n.bits = 32) ∧ Tok.chr 44 ∈ c.toks)) :
    ActGood mk r P d (treeAct ((c.cond mk).compile d c.base)) := by
  have hw : ∀ n ∈ (c.cond mk).nums, Width n.bits := by
    intro n hm
    rcases hn with h | h
    · exact (h n hm).width'
    · exact Or.inr (Or.inr (Or.inr (h.1 n hm)))
  refine actGood_tree (e := .cond c) h34 h2 hv hseg (fun t d' h => compile_same hw h) ?_
  rcases hn with h | h
  · left; exact compile_ok d _ _ h
  · by_cases hall : ∀ n ∈ (c.cond mk).nums, n.val.toNat ≠ 0 ∧ n.val.toNat ≠ 2 ^ 32 - 1
    · left
      refine compile_ok d _ _ fun n hm => ?_
      have h1 := hall n hm
      have h2 := n.val.toNat_lt
      have h3 := h.1 n hm
      unfold NumOk
      rw [h3]
      omega
    · rcases compile32_cases d c.base _ h.1 with h' | h'
      · left; exact h'
      · right
        refine ⟨h', c, hv, hseg, h.2, ?_⟩
        apply Classical.byContradiction
        intro hne
        apply hall
        intro n hm
        exact ⟨fun h => hne ⟨n, hm, Or.inl h⟩, fun h => hne ⟨n, hm, Or.inr h⟩⟩

theorem dateCond_bits (op : CmpOp) (s m : Bytes) (dd y : NumSyn) :
    ∀ n ∈ ((CondSyn.date op s m dd y).cond mk).nums, n.bits = 32 := by
  cases op <;> simp [CondSyn.cond, CmpOp.cond, NumCond.nums]

theorem actGood_attrs {r : Nat} {P : List GEnt} {d d' : Drv} {l : List Bytes} {a : AExpr}
    (h35 : (yyR1.getD r 0).toNat = 35) (h2 : r ≠ 2 ∧ r ≠ 3 ∧ r ≠ 4 ∧ r ≠ 5)
    (hv : a.valid = true) (hc : a.canon = true) (hseg : segsOf P = a.toks)
    (hi : r = 23 ∨ r = 27 ∨ r = 28 → IsItem (segsOf P)) (hs : SameOut d d') :
    ActGood mk r P d (.ok (some (.attrs (some l), d'))) := by
  refine ⟨?_, fun _ _ => hs, ?_, ?_, hi, hs.2.2.1⟩
  · rw [h35, hseg]; exact SymOk.list hv hc
  · rintro (h | h) <;> omega
  · intro h; cases h

theorem act_sound {r : Nat} (h2 : 2 ≤ r) (h28 : r ≤ 28) {P : List GEnt} {d : Drv} (hs : Segs P (rhsRev r))
    (hitem : r = 25 ∨ r = 26 → ∃ g ∈ P.getLast?, IsItem g.seg) :
    ActGood mk r P d (act mk r (P.map GEnt.val) d) := by
  interval_cases r
  · -- rule 2
    simp only [rhsRev, segs_cons, segs_nil] at hs
    obtain ⟨g1, _, rfl, s1, g2, _, rfl, s2, rfl⟩ := hs
    obtain ⟨a1, t1, n1, v1, e1⟩ := s1.inv34
    have e2 := s2.invFixed rfl
    simp only [List.map_cons, List.map_nil, v1]
    refine ⟨?_, fun h => absurd rfl h, (fun h => by omega), (fun h => by cases h), (fun h => by omega), rfl⟩
    have : segsOf [g1, g2] = .startPolicy :: a1.toks := by simp [segsOf, e1, e2, List.nil_append]
    rw [this]; exact SymOk.startP n1
  · -- rule 3
    simp only [rhsRev, segs_cons, segs_nil] at hs
    obtain ⟨g1, _, rfl, s1, g2, _, rfl, s2, rfl⟩ := hs
    obtain ⟨a1, l1, n1, c1, v1, e1⟩ := s1.inv35
    have e2 := s2.invFixed rfl
    simp only [List.map_cons, List.map_nil, v1]
    cases l1 with
    | none => exact Or.inr ⟨rfl, g1, by simp, v1⟩
    | some l =>
      refine ⟨?_, (fun _ h => absurd rfl h), (fun h => by omega), (fun h => by cases h), (fun h => by omega), rfl⟩
      have : segsOf [g1, g2] = .startAttr :: a1.toks := by simp [segsOf, e1, e2, List.nil_append]
      rw [this]; exact SymOk.startA n1 c1
  · -- rule 4
    simp only [rhsRev, segs_cons, segs_nil] at hs
    obtain ⟨g1, _, rfl, s1, g2, _, rfl, s2, g3, _, rfl, s3, rfl⟩ := hs
    obtain ⟨a1, n1, v1, e1⟩ := s1.inv5
    have e2 := s2.invFixed rfl
    obtain ⟨a3, n3, v3, e3⟩ := s3.inv5
    simp only [List.map_cons, List.map_nil, v1, v3]
    by_cases hv : checkValidBit a3 a1 = true
    · have : act mk 4 [.uint a1, g2.val, .uint a3] d = .ok (some (.num (createExpint a3 a1), d)) := by
        show (if checkValidBit a3 a1 then _ else _) = _
        rw [if_pos hv]
      rw [this]
      refine ⟨?_, fun _ _ => SameOut.refl d, fun _ => rfl, (fun h => by cases h), (fun h => by omega), rfl⟩
      have : segsOf [g1, g2, g3] = (NumSyn.exp a3 a1).toks := by simp [segsOf, e1, e2, e3, NumSyn.toks]
      rw [this]; exact SymOk.num (n := .exp a3 a1) hv (numOk_exp n3 hv)
    · have : act mk 4 [.uint a1, g2.val, .uint a3] d = .ok none := by
        show (if checkValidBit a3 a1 then _ else _) = _
        rw [if_neg hv]
      rw [this]; rfl
  · -- rule 5
    simp only [rhsRev, segs_cons, segs_nil] at hs
    obtain ⟨g1, _, rfl, s1, rfl⟩ := hs
    obtain ⟨a1, n1, v1, e1⟩ := s1.inv5
    simp only [List.map_cons, List.map_nil, v1]
    refine ⟨?_, fun _ _ => SameOut.refl d, fun _ => rfl, (fun h => by cases h), (fun h => by omega), rfl⟩
    have : segsOf [g1] = (NumSyn.flex a1).toks := by simp [segsOf, e1, NumSyn.toks]
    rw [this]; exact SymOk.num (n := .flex a1) rfl (numOk_flex n1)
  · -- rule 6
    simp only [rhsRev, segs_cons, segs_nil] at hs
    obtain ⟨g1, _, rfl, s1, rfl⟩ := hs
    obtain ⟨a1, n1, v1, e1⟩ := s1.inv4
    simp only [List.map_cons, List.map_nil, v1]
    exact actGood_tree (e := .leaf a1) rfl (by decide) rfl (by simp [segsOf, e1, Expr.toks]) (fun t d' h => leafNode_same h)
      (Or.inl (leafNode_ok d (name_ne58 n1)))
  · -- rule 7
    simp only [rhsRev, segs_cons, segs_nil] at hs
    obtain ⟨g1, _, rfl, s1, g2, _, rfl, s2, g3, _, rfl, s3, rfl⟩ := hs
    obtain ⟨a1, t1, n1, v1, e1⟩ := s1.inv34
    have e2 := s2.invFixed rfl
    obtain ⟨a3, t3, n3, v3, e3⟩ := s3.inv34
    simp only [List.map_cons, List.map_nil, v1, v3]
    exact actGood_tree (R := .ok (kof2 1 t3 t1, d)) (e := .or a3 a1) rfl (by decide) (by simp [Expr.valid, n1, n3])
      (by simp [segsOf, e1, e2, e3, Expr.toks]) (fun t d' h => by cases h; exact SameOut.refl d) (Or.inl ⟨_, _, rfl⟩)
  · -- rule 8
    simp only [rhsRev, segs_cons, segs_nil] at hs
    obtain ⟨g1, _, rfl, s1, g2, _, rfl, s2, g3, _, rfl, s3, rfl⟩ := hs
    obtain ⟨a1, t1, n1, v1, e1⟩ := s1.inv34
    have e2 := s2.invFixed rfl
    obtain ⟨a3, t3, n3, v3, e3⟩ := s3.inv34
    simp only [List.map_cons, List.map_nil, v1, v3]
    exact actGood_tree (R := .ok (kof2 2 t3 t1, d)) (e := .and a3 a1) rfl (by decide) (by simp [Expr.valid, n1, n3])
      (by simp [segsOf, e1, e2, e3, Expr.toks]) (fun t d' h => by cases h; exact SameOut.refl d) (Or.inl ⟨_, _, rfl⟩)
  · -- rule 9
    simp only [rhsRev, segs_cons, segs_nil] at hs
    obtain ⟨g1, _, rfl, s1, g2, _, rfl, s2, g3, _, rfl, s3, rfl⟩ := hs
    obtain ⟨a1, n1, o1, v1, e1⟩ := s1.inv33
    have e2 := s2.invFixed rfl
    obtain ⟨a3, n3, v3, e3⟩ := s3.inv4
    simp only [List.map_cons, List.map_nil, v1, v3]
    exact CondSyn.actGood (mk := mk) (.cmp .lt a3 a1) rfl (by decide) n1 (by simp [segsOf, e1, e2, e3, CondSyn.toks, CmpOp.tok])
      (Or.inl (by simpa [CondSyn.cond, CmpOp.cond, NumCond.nums] using o1))
  · -- rule 10
    simp only [rhsRev, segs_cons, segs_nil] at hs
    obtain ⟨g1, _, rfl, s1, g2, _, rfl, s2, g3, _, rfl, s3, rfl⟩ := hs
    obtain ⟨a1, n1, o1, v1, e1⟩ := s1.inv33
    have e2 := s2.invFixed rfl
    obtain ⟨a3, n3, v3, e3⟩ := s3.inv4
    simp only [List.map_cons, List.map_nil, v1, v3]
    exact CondSyn.actGood (mk := mk) (.cmp .gt a3 a1) rfl (by decide) n1 (by simp [segsOf, e1, e2, e3, CondSyn.toks, CmpOp.tok])
      (Or.inl (by simpa [CondSyn.cond, CmpOp.cond, NumCond.nums] using o1))
  · -- rule 11
    simp only [rhsRev, segs_cons, segs_nil] at hs
    obtain ⟨g1, _, rfl, s1, g2, _, rfl, s2, g3, _, rfl, s3, rfl⟩ := hs
    obtain ⟨a1, n1, o1, v1, e1⟩ := s1.inv33
    have e2 := s2.invFixed rfl
    obtain ⟨a3, n3, v3, e3⟩ := s3.inv4
    simp only [List.map_cons, List.map_nil, v1, v3]
    exact CondSyn.actGood (mk := mk) (.cmp .le a3 a1) rfl (by decide) n1 (by simp [segsOf, e1, e2, e3, CondSyn.toks, CmpOp.tok])
      (Or.inl (by simpa [CondSyn.cond, CmpOp.cond, NumCond.nums] using o1))
  · -- rule 12
    simp only [rhsRev, segs_cons, segs_nil] at hs
    obtain ⟨g1, _, rfl, s1, g2, _, rfl, s2, g3, _, rfl, s3, rfl⟩ := hs
    obtain ⟨a1, n1, o1, v1, e1⟩ := s1.inv33
    have e2 := s2.invFixed rfl
    obtain ⟨a3, n3, v3, e3⟩ := s3.inv4
    simp only [List.map_cons, List.map_nil, v1, v3]
    exact CondSyn.actGood (mk := mk) (.cmp .ge a3 a1) rfl (by decide) n1 (by simp [segsOf, e1, e2, e3, CondSyn.toks, CmpOp.tok])
      (Or.inl (by simpa [CondSyn.cond, CmpOp.cond, NumCond.nums] using o1))
  · -- rule 13
    simp only [rhsRev, segs_cons, segs_nil] at hs
    obtain ⟨g1, _, rfl, s1, g2, _, rfl, s2, g3, _, rfl, s3, rfl⟩ := hs
    obtain ⟨a1, n1, o1, v1, e1⟩ := s1.inv33
    have e2 := s2.invFixed rfl
    obtain ⟨a3, n3, v3, e3⟩ := s3.inv4
    simp only [List.map_cons, List.map_nil, v1, v3]
    exact CondSyn.actGood (mk := mk) (.cmp .eq a3 a1) rfl (by decide) n1 (by simp [segsOf, e1, e2, e3, CondSyn.toks, CmpOp.tok])
      (Or.inl (by simpa [CondSyn.cond, CmpOp.cond, NumCond.nums] using o1))
  · -- rule 14
    simp only [rhsRev, segs_cons, segs_nil] at hs
    obtain ⟨g1, _, rfl, s1, g2, _, rfl, s2, g3, _, rfl, s3, rfl⟩ := hs
    have e1 := s1.invFixed rfl
    obtain ⟨a2, t2, n2, v2, e2⟩ := s2.inv34
    have e3 := s3.invFixed rfl
    simp only [List.map_cons, List.map_nil, v2]
    exact actGood_tree (R := .ok (t2, d)) (e := .paren a2) rfl (by decide) n2
      (by simp [segsOf, e1, e2, e3, Expr.toks]) (fun t d' h => by cases h; exact SameOut.refl d) (Or.inl ⟨_, _, rfl⟩)
  · -- rule 15
    simp only [rhsRev, segs_cons, segs_nil] at hs
    obtain ⟨g1, _, rfl, s1, g2, _, rfl, s2, g3, _, rfl, s3, g4, _, rfl, s4, g5, _, rfl, s5, g6, _, rfl, s6, g7, _, rfl, s7, rfl⟩ := hs
    have e1 := s1.invFixed rfl
    obtain ⟨a2, n2, o2, v2, e2⟩ := s2.inv33
    have e3 := s3.invFixed rfl
    obtain ⟨a4, n4, o4, v4, e4⟩ := s4.inv33
    have e5 := s5.invFixed rfl
    have e6 := s6.invFixed rfl
    obtain ⟨a7, n7, v7, e7⟩ := s7.inv4
    simp only [List.map_cons, List.map_nil, v2, v4, v7]
    exact CondSyn.actGood (mk := mk) (.rangeO a7 a4 a2) rfl (by decide) (by simp [CondSyn.valid, n2, n4])
      (by simp [segsOf, e1, e2, e3, e4, e5, e6, e7, CondSyn.toks]) (Or.inl (by simp [CondSyn.cond, NumCond.nums, o2, o4]))
  · -- rule 16
    simp only [rhsRev, segs_cons, segs_nil] at hs
    obtain ⟨g1, _, rfl, s1, g2, _, rfl, s2, g3, _, rfl, s3, g4, _, rfl, s4, g5, _, rfl, s5, g6, _, rfl, s6, g7, _, rfl, s7, rfl⟩ := hs
    have e1 := s1.invFixed rfl
    obtain ⟨a2, n2, o2, v2, e2⟩ := s2.inv33
    have e3 := s3.invFixed rfl
    obtain ⟨a4, n4, o4, v4, e4⟩ := s4.inv33
    have e5 := s5.invFixed rfl
    have e6 := s6.invFixed rfl
    obtain ⟨a7, n7, v7, e7⟩ := s7.inv4
    simp only [List.map_cons, List.map_nil, v2, v4, v7]
    exact CondSyn.actGood (mk := mk) (.rangeC a7 a4 a2) rfl (by decide) (by simp [CondSyn.valid, n2, n4])
      (by simp [segsOf, e1, e2, e3, e4, e5, e6, e7, CondSyn.toks]) (Or.inl (by simp [CondSyn.cond, NumCond.nums, o2, o4]))
  · -- rule 17
    simp only [rhsRev, segs_cons, segs_nil] at hs
    obtain ⟨g1, _, rfl, s1, g2, _, rfl, s2, g3, _, rfl, s3, g4, _, rfl, s4, g5, _, rfl, s5, g6, _, rfl, s6, rfl⟩ := hs
    obtain ⟨a1, n1, o1, v1, e1⟩ := s1.inv33
    have e2 := s2.invFixed rfl
    obtain ⟨a3, n3, o3, v3, e3⟩ := s3.inv33
    obtain ⟨a4, n4, v4, e4⟩ := s4.inv4
    have e5 := s5.invFixed rfl
    obtain ⟨a6, n6, v6, e6⟩ := s6.inv4
    simp only [List.map_cons, List.map_nil, v1, v3, v4, v6]
    exact CondSyn.actGood (mk := mk) (.date .eq a6 a4 a3 a1) rfl (by decide) (by simp [CondSyn.valid, n1, n3])
      (by simp [segsOf, e1, e2, e3, e4, e5, e6, CondSyn.toks, CmpOp.dateTok, CmpOp.tok]) (Or.inr ⟨dateCond_bits _ _ _ _ _, by simp [CondSyn.toks]⟩)
  · -- rule 18
    simp only [rhsRev, segs_cons, segs_nil] at hs
    obtain ⟨g1, _, rfl, s1, g2, _, rfl, s2, g3, _, rfl, s3, g4, _, rfl, s4, g5, _, rfl, s5, g6, _, rfl, s6, g7, _, rfl, s7, g8, _, rfl, s8, rfl⟩ := hs
    obtain ⟨a1, n1, o1, v1, e1⟩ := s1.inv33
    have e2 := s2.invFixed rfl
    obtain ⟨a3, n3, o3, v3, e3⟩ := s3.inv33
    have e4 := s4.invFixed rfl
    obtain ⟨a5, n5, o5, v5, e5⟩ := s5.inv33
    obtain ⟨a6, n6, v6, e6⟩ := s6.inv4
    have e7 := s7.invFixed rfl
    obtain ⟨a8, n8, v8, e8⟩ := s8.inv4
    simp only [List.map_cons, List.map_nil, v1, v3, v5, v6, v8]
    exact CondSyn.actGood (mk := mk) (.dateRange a8 a6 a5 a3 a1) rfl (by decide) (by simp [CondSyn.valid, n1, n3, n5])
      (by simp [segsOf, e1, e2, e3, e4, e5, e6, e7, e8, CondSyn.toks]) (Or.inr ⟨by simp [CondSyn.cond, NumCond.nums], by simp [CondSyn.toks]⟩)
  · -- rule 19
    simp only [rhsRev, segs_cons, segs_nil] at hs
    obtain ⟨g1, _, rfl, s1, g2, _, rfl, s2, g3, _, rfl, s3, g4, _, rfl, s4, g5, _, rfl, s5, g6, _, rfl, s6, rfl⟩ := hs
    obtain ⟨a1, n1, o1, v1, e1⟩ := s1.inv33
    have e2 := s2.invFixed rfl
    obtain ⟨a3, n3, o3, v3, e3⟩ := s3.inv33
    obtain ⟨a4, n4, v4, e4⟩ := s4.inv4
    have e5 := s5.invFixed rfl
    obtain ⟨a6, n6, v6, e6⟩ := s6.inv4
    simp only [List.map_cons, List.map_nil, v1, v3, v4, v6]
    exact CondSyn.actGood (mk := mk) (.date .gt a6 a4 a3 a1) rfl (by decide) (by simp [CondSyn.valid, n1, n3])
      (by simp [segsOf, e1, e2, e3, e4, e5, e6, CondSyn.toks, CmpOp.dateTok, CmpOp.tok]) (Or.inr ⟨dateCond_bits _ _ _ _ _, by simp [CondSyn.toks]⟩)
  · -- rule 20
    simp only [rhsRev, segs_cons, segs_nil] at hs
    obtain ⟨g1, _, rfl, s1, g2, _, rfl, s2, g3, _, rfl, s3, g4, _, rfl, s4, g5, _, rfl, s5, g6, _, rfl, s6, rfl⟩ := hs
    obtain ⟨a1, n1, o1, v1, e1⟩ := s1.inv33
    have e2 := s2.invFixed rfl
    obtain ⟨a3, n3, o3, v3, e3⟩ := s3.inv33
    obtain ⟨a4, n4, v4, e4⟩ := s4.inv4
    have e5 := s5.invFixed rfl
    obtain ⟨a6, n6, v6, e6⟩ := s6.inv4
    simp only [List.map_cons, List.map_nil, v1, v3, v4, v6]
    exact CondSyn.actGood (mk := mk) (.date .lt a6 a4 a3 a1) rfl (by decide) (by simp [CondSyn.valid, n1, n3])
      (by simp [segsOf, e1, e2, e3, e4, e5, e6, CondSyn.toks, CmpOp.dateTok, CmpOp.tok]) (Or.inr ⟨dateCond_bits _ _ _ _ _, by simp [CondSyn.toks]⟩)
  · -- rule 21
    simp only [rhsRev, segs_cons, segs_nil] at hs
    obtain ⟨g1, _, rfl, s1, g2, _, rfl, s2, g3, _, rfl, s3, g4, _, rfl, s4, g5, _, rfl, s5, g6, _, rfl, s6, rfl⟩ := hs
    obtain ⟨a1, n1, o1, v1, e1⟩ := s1.inv33
    have e2 := s2.invFixed rfl
    obtain ⟨a3, n3, o3, v3, e3⟩ := s3.inv33
    obtain ⟨a4, n4, v4, e4⟩ := s4.inv4
    have e5 := s5.invFixed rfl
    obtain ⟨a6, n6, v6, e6⟩ := s6.inv4
    simp only [List.map_cons, List.map_nil, v1, v3, v4, v6]
    exact CondSyn.actGood (mk := mk) (.date .ge a6 a4 a3 a1) rfl (by decide) (by simp [CondSyn.valid, n1, n3])
      (by simp [segsOf, e1, e2, e3, e4, e5, e6, CondSyn.toks, CmpOp.dateTok, CmpOp.tok]) (Or.inr ⟨dateCond_bits _ _ _ _ _, by simp [CondSyn.toks]⟩)
  · -- rule 22
    simp only [rhsRev, segs_cons, segs_nil] at hs
    obtain ⟨g1, _, rfl, s1, g2, _, rfl, s2, g3, _, rfl, s3, g4, _, rfl, s4, g5, _, rfl, s5, g6, _, rfl, s6, rfl⟩ := hs
    obtain ⟨a1, n1, o1, v1, e1⟩ := s1.inv33
    have e2 := s2.invFixed rfl
    obtain ⟨a3, n3, o3, v3, e3⟩ := s3.inv33
    obtain ⟨a4, n4, v4, e4⟩ := s4.inv4
    have e5 := s5.invFixed rfl
    obtain ⟨a6, n6, v6, e6⟩ := s6.inv4
    simp only [List.map_cons, List.map_nil, v1, v3, v4, v6]
    exact CondSyn.actGood (mk := mk) (.date .le a6 a4 a3 a1) rfl (by decide) (by simp [CondSyn.valid, n1, n3])
      (by simp [segsOf, e1, e2, e3, e4, e5, e6, CondSyn.toks, CmpOp.dateTok, CmpOp.tok]) (Or.inr ⟨dateCond_bits _ _ _ _ _, by simp [CondSyn.toks]⟩)
  · -- rule 23
    simp only [rhsRev, segs_cons, segs_nil] at hs
    obtain ⟨g1, _, rfl, s1, rfl⟩ := hs
    obtain ⟨a1, n1, v1, e1⟩ := s1.inv4
    simp only [List.map_cons, List.map_nil, v1]
    obtain ⟨l, d', hl⟩ := leafAttr_ok d (name_ne58 n1)
    have hsp := leafAttr_spec hl
    have : act mk 23 [.str a1] d = .ok (some (.attrs l, d')) := by
      show (leafAttr d a1 >>= _) = _
      rw [hl]; rfl
    rw [this]
    have hseg : segsOf [g1] = (Item.leaf a1).toks := by simp [segsOf, e1, Item.toks]
    refine ⟨?_, fun _ _ => hsp.1, (fun h => by omega), ?_, fun _ => ⟨_, rfl, hseg⟩, hsp.1.2.2.1⟩
    · rw [hseg]; exact SymOk.item rfl
    · intro h; cases h; exact ⟨rfl, hsp.2 rfl⟩
  · -- rule 24
    simp only [rhsRev, segs_cons, segs_nil] at hs
    obtain ⟨g1, _, rfl, s1, g2, _, rfl, s2, rfl⟩ := hs
    obtain ⟨a1, l1, n1, c1, v1, e1⟩ := s1.inv35
    have e2 := s2.invFixed rfl
    simp only [List.map_cons, List.map_nil, v1]
    exact actGood_attrs (a := .pre a1) rfl (by decide) n1 c1 (by simp [segsOf, e1, e2, AExpr.toks]) (fun h => by omega) (SameOut.refl d)
  · -- rule 25
    simp only [rhsRev, segs_cons, segs_nil] at hs
    obtain ⟨g1, _, rfl, s1, g2, _, rfl, s2, rfl⟩ := hs
    have e1 := s1.invFixed rfl
    obtain ⟨a2, l2, n2, c2, v2, e2⟩ := s2.inv35
    simp only [List.map_cons, List.map_nil, v2]
    obtain ⟨g, hg, i, hi, ei⟩ := hitem (Or.inl rfl)
    have hg : g = g2 := by simpa using hg.symm
    subst hg
    exact actGood_attrs (a := .post (.item i)) rfl (by decide) hi rfl (by simp [segsOf, e1, ei, AExpr.toks])
      (fun h => by omega) (SameOut.refl d)
  · -- rule 26
    simp only [rhsRev, segs_cons, segs_nil] at hs
    obtain ⟨g1, _, rfl, s1, g2, _, rfl, s2, g3, _, rfl, s3, rfl⟩ := hs
    obtain ⟨a1, l1, n1, c1, v1, e1⟩ := s1.inv35
    have e2 := s2.invFixed rfl
    obtain ⟨a3, l3, n3, c3, v3, e3⟩ := s3.inv35
    simp only [List.map_cons, List.map_nil, v1, v3]
    obtain ⟨g, hg, i, hi, ei⟩ := hitem (Or.inr rfl)
    have hg : g = g3 := by simpa using hg.symm
    subst hg
    exact actGood_attrs (a := .cat (.item i) a1) rfl (by decide) (by simp [AExpr.valid, hi, n1])
      (by simp [AExpr.canon, AExpr.isItem, c1]) (by simp [segsOf, e1, e2, ei, AExpr.toks])
      (fun h => by omega) (SameOut.refl d)
  · -- rule 27
    simp only [rhsRev, segs_cons, segs_nil] at hs
    obtain ⟨g1, _, rfl, s1, g2, _, rfl, s2, g3, _, rfl, s3, rfl⟩ := hs
    obtain ⟨a1, n1, o1, v1, e1⟩ := s1.inv33
    have e2 := s2.invFixed rfl
    obtain ⟨a3, n3, v3, e3⟩ := s3.inv4
    simp only [List.map_cons, List.map_nil, v1, v3]
    have hseg : segsOf [g1, g2, g3] = (Item.num a3 a1).toks := by simp [segsOf, e1, e2, e3, Item.toks]
    exact actGood_attrs (a := .item (.num a3 a1)) rfl (by decide) n1 rfl hseg (fun _ => ⟨.num a3 a1, n1, hseg⟩) (attrNum_same _ _ _)
  · -- rule 28
    simp only [rhsRev, segs_cons, segs_nil] at hs
    obtain ⟨g1, _, rfl, s1, g2, _, rfl, s2, g3, _, rfl, s3, g4, _, rfl, s4, g5, _, rfl, s5, g6, _, rfl, s6, rfl⟩ := hs
    obtain ⟨a1, n1, o1, v1, e1⟩ := s1.inv33
    have e2 := s2.invFixed rfl
    obtain ⟨a3, n3, o3, v3, e3⟩ := s3.inv33
    obtain ⟨a4, n4, v4, e4⟩ := s4.inv4
    have e5 := s5.invFixed rfl
    obtain ⟨a6, n6, v6, e6⟩ := s6.inv4
    simp only [List.map_cons, List.map_nil, v1, v3, v4, v6]
    have hseg : segsOf [g1, g2, g3, g4, g5, g6] = (Item.date a6 a4 a3 a1).toks := by simp [segsOf, e1, e2, e3, e4, e5, e6, Item.toks]
    have hv : (Item.date a6 a4 a3 a1).valid = true := by simp [Item.valid, n1, n3]
    exact actGood_attrs (a := .item (.date a6 a4 a3 a1)) rfl (by decide) hv rfl hseg (fun _ => ⟨_, hv, hseg⟩)
      (setDateAttr_same _ _ _ _ _ _ _)

/-! ### More table facts -/

theorem tab_sep : (states.all fun s => !((yyDefact.getD s 0).toNat == 24 || (yyDefact.getD s 0).toNat == 25 ||
    (yyDefact.getD s 0).toNat == 26) || (yyLook s 30).isSome) = true := by decide +kernel

theorem tab_item : (states.all fun s => (!((yyDefact.getD s 0).toNat == 25) || s == 23) &&
    (!((yyDefact.getD s 0).toNat == 26) || states.all fun s' => !(decide (trans s' 35 = some s)) || s' == 23)) = true := by
  decide +kernel

theorem tab_start : ∀ x, x ≤ 30 → yyLook 3 x ≠ none → x = 0 := by decide +kernel

theorem tab_r1 : ∀ r, r ≤ 28 → 2 ≤ r → 32 ≤ (yyR1.getD r 0).toNat ∧ (yyR1.getD r 0).toNat ≤ 35 ∧
    ((yyR1.getD r 0).toNat = 32 ↔ r = 2 ∨ r = 3) ∧ ((yyR1.getD r 0).toNat = 33 ↔ r = 4 ∨ r = 5) ∧
    ((yyR1.getD r 0).toNat = 35 ↔ 23 ≤ r) := by decide +kernel

theorem tab_acc : (states.all fun s => !decide (trans s 0 = some 10) || s == 3) = true := by decide +kernel

theorem trans_32 {s n : Nat} (h : trans s 32 = some n) : s = 0 := by
  unfold trans at h
  simp at h
  exact h.1

/-- Weight of an entry in the termination measure. -/
def wt (x : Nat) : Nat := if x ≤ 30 then 2 else 1

theorem wt_rhs : ∀ r, r ≤ 28 → 2 ≤ r → 2 ≤ ((rhsRev r).map wt).sum := by decide +kernel

theorem rhs_ne0 : ∀ r, r ≤ 28 → ∀ x ∈ rhsRev r, x ≠ 0 := by decide +kernel

theorem tokOf_chr : ∀ b : UInt8, (Tok.chr b).sym ≠ 0 → (Tok.chr b).sym ≠ 2 →
    tokOf (Tok.chr b).sym = some (.chr b) := forall_uint8 (by decide +kernel)

/-- A token that the parser can shift carries its value. -/
theorem symOk_tok {t : Tok} (ht : TokOk t) (hx : t.sym ≠ 0) (h2 : t.sym ≠ 2) (h3 : t.sym ≠ 3) (h16 : t.sym ≠ 16) :
    SymOk t.sym t.val [t] := by
  cases t with
  | leaf s => exact SymOk.leaf ht
  | uint n => exact SymOk.uint ht
  | eol => exact absurd rfl h3
  | error => exact absurd rfl h16
  | chr b =>
    exact SymOk.fixed (tokOf_chr b hx h2)
  | or => exact SymOk.fixed rfl
  | and => exact SymOk.fixed rfl
  | eq => exact SymOk.fixed rfl
  | leq => exact SymOk.fixed rfl
  | geq => exact SymOk.fixed rfl
  | startPolicy => exact SymOk.fixed rfl
  | startAttr => exact SymOk.fixed rfl
  | inn => exact SymOk.fixed rfl

/-! ### The invariant -/

/-- Invariant of the parsing loop on the tokens `T`. -/
structure PInv (b : Bool) (T : List Tok) (G : List GEnt) (c : PConf) : Prop where
  stack : c.stack = G.map fun g => (g.st, g.val)
  ok : GOk G
  toks : segsOf G ++ c.toks = T
  good : ∀ t ∈ T, TokOk t
  outs : ∀ g ∈ G.head?, g.st ≠ 3 → g.st ≠ 10 → c.drv.policy = none ∧ c.drv.attrs = none
  counts : (∀ g ∈ G, ¬ isBig g) → c.drv.attrCount = []
  item : ∀ g ∈ G.head?, stos g.st = 35 → IsItem g.seg ∨ la c.toks ≠ 30
  fin : ∀ g ∈ G.head?, g.st = 10 → la (g.seg ++ c.toks) = 0
  kind : c.drv.isPolicy = b

/-- What the parser may return for the tokens `T`. -/
def PGood (mk : Mktime) (b : Bool) (T : List Tok) : Res (Bool × Drv) → Prop
  | .ok (true, _) => ∃ ts, la ts = 0 ∧ ((∃ e : Expr, e.valid = true ∧ T = .startPolicy :: (e.toks ++ ts)) ∨
      ∃ a : AExpr, a.valid = true ∧ a.canon = true ∧ T = .startAttr :: (a.toks ++ ts))
  | .ok (false, d) => if b then d.policy = none else d.attrs = none
  | .ub => ∃ c : CondSyn, c.valid = true ∧ c.toks <:+: T ∧ c.BadDate mk
  | .throw _ => False
  | .abort => False

/-- Measure of a configuration. -/
def pmeas (G : List GEnt) (c : PConf) : Nat :=
  match G with
  | [] => 0
  | g :: _ => if g.st = 10 then 0 else 1 + 3 * c.toks.length + (G.map fun g => wt (stos g.st)).sum

theorem GOk.bottom {g : GEnt} {r : List GEnt} (h : GOk (g :: r)) (h0 : g.st = 0) : r = [] := by
  cases r with
  | nil => rfl
  | cons g' r =>
    exfalso
    have h1 := goto_facts (GOk.lt h.2.2.2.2.2) (stos_le _ h.1) h.2.1
    omega

theorem yyErr_good {mk : Mktime} {b : Bool} {T : List Tok} {d : Drv} (hk : d.isPolicy = b) : PGood mk b T (.ok (false, d.error)) := by
  subst hk
  unfold PGood Drv.error
  cases d.isPolicy <;> simp

/-- One round of the loop keeps the invariant. -/
theorem step_inv {b : Bool} {T : List Tok} {G : List GEnt} {c : PConf} (hi : PInv b T G c) :
    (∃ c' G', yyStep mk c = .next c' ∧ PInv b T G' c' ∧ pmeas G' c' < pmeas G c) ∨
      ∃ r, yyStep mk c = .stop r ∧ PGood mk b T r := by
  obtain ⟨hst, hok, htk, hgood, houts, hcnt, hitem, hfin, hkind⟩ := hi
  cases G with
  | nil => simp [GOk] at hok
  | cons g G =>
  have hlt : g.st < 75 := hok.lt
  simp only [List.map_cons] at hst
  replace houts := houts g rfl
  replace hitem := hitem g rfl
  replace hfin := hfin g rfl
  by_cases h10 : g.st = 10
  · -- accept
    right
    refine ⟨.ok (true, c.drv), by unfold yyStep; rw [hst]; simp [h10], ?_⟩
    have hs10 : stos 10 = 0 := by decide
    cases G with
    | nil => simp only [GOk] at hok; omega
    | cons g1 G =>
    have hok1 := hok.2.2.2.2.2
    have ht := hok.2.1
    rw [h10, hs10] at ht
    have h3 : g1.st = 3 := by
      have := List.all_eq_true.mp tab_acc g1.st (by simp [states]; exact hok1.lt)
      simpa [ht] using this
    cases G with
    | nil => simp only [GOk] at hok1; omega
    | cons g2 G =>
    have hok2 := hok1.2.2.2.2.2
    have hs3 : stos 3 = 32 := by decide
    have ht1 := hok1.2.1
    rw [h3, hs3] at ht1
    have h0 := trans_32 ht1
    have := hok2.bottom h0
    subst this
    have hsy := hok1.2.2.1
    rw [h3, hs3] at hsy
    have hseg2 : g2.seg = [] := hok2.2
    have hla := hfin h10
    refine ⟨g.seg ++ c.toks, hla, ?_⟩
    have hT : T = g1.seg ++ (g.seg ++ c.toks) := by
      rw [← htk]; simp [segsOf, hseg2]
    rcases hsy.inv32 with ⟨e, he, hs⟩ | ⟨a, ha, hc, hs⟩
    · left; exact ⟨e, he, by rw [hT, hs]; simp⟩
    · right; exact ⟨a, ha, hc, by rw [hT, hs]; simp⟩
  · have hla30 : la c.toks ≤ 30 := la_le _
    cases hl : yyLook g.st (la c.toks) with
    | some n =>
      -- shift
      left
      obtain ⟨hn0, hn75, hnst, hx, hx0, hn10, hn3, hn23⟩ := look_facts hlt hla30 hl
      have hstep : yyStep mk c = .next { c with stack := (n.toNat, laVal c.toks) :: c.stack, toks := c.toks.tail } := by
        unfold yyStep
        rw [hst]
        simp only [h10, hl, if_false]
        rw [if_neg (by omega)]
      have hg3 : g.st = 3 → la c.toks = 0 := fun h => tab_start _ hla30 (by rw [← h, hl]; simp)
      let g' : GEnt := { st := n.toNat, val := laVal c.toks, seg := c.toks.take 1 }
      refine ⟨_, g' :: g :: G, hstep, ⟨?_, ?_, ?_, hgood, ?_, ?_, ?_, ?_, hkind⟩, ?_⟩
      · simp [g', hst]
      · refine ⟨hn75, ?_, ?_, ?_, ?_, hok⟩
        · show trans g.st (stos n.toNat) = some n.toNat
          rw [hnst]; simp [trans, hla30, hl]
        · show SymOk (stos n.toNat) _ _
          rw [hnst]
          simp only [g']
          cases htt : c.toks with
          | nil => exact SymOk.eofNone
          | cons t r =>
            rw [htt] at hx hx0
            simp only [la, laVal, List.take_succ_cons, List.take_zero] at hx hx0 ⊢
            by_cases h0 : t.sym = 0
            · rw [h0]; exact SymOk.eofTok h0
            · exact symOk_tok (hgood t (by rw [← htk, htt]; simp)) h0 hx.2.1 hx.2.2.1 hx.2.2.2.2.2.2.2.2
        · intro h23
          have := hn23.mp h23
          have hs35 : stos g.st = 35 := by
            rcases this.2 with h | h | h <;> rw [h] <;> decide
          rcases hitem hs35 with h | h
          · exact h
          · exact absurd this.1 h
        · intro hv
          exfalso
          simp only [g'] at hv
          cases htt : c.toks with
          | nil => rw [htt] at hv; cases hv
          | cons t r => rw [htt] at hv; cases t <;> cases hv
      · rw [← htk]
        simp only [segsOf, g']
        cases c.toks <;> simp
      · intro a ha h3 ha10
        simp at ha
        subst ha
        have hne : la c.toks ≠ 0 := fun h => ha10 (hx0.mp h)
        exact houts (fun h => hne (hg3 h)) h10
      · intro h
        exact hcnt (fun a ha => h a (List.mem_cons_of_mem _ ha))
      · intro a ha h35
        simp at ha
        subst ha
        simp only [g'] at h35
        omega
      · intro a ha ha10
        simp at ha
        subst ha
        simp only [g']
        have : c.toks.take 1 ++ c.toks.tail = c.toks := by cases c.toks <;> simp
        rw [this]
        exact hx0.mpr ha10
      · simp only [pmeas, h10, if_false, g']
        split
        · omega
        · rename_i hne
          have : c.toks ≠ [] := by
            intro h
            rw [h] at hx0
            exact hne (hx0.mp rfl)
          cases htt : c.toks with
          | nil => exact absurd htt this
          | cons t r =>
            simp only [List.map_cons, List.sum_cons, List.tail_cons, List.length_cons, hnst]
            have : wt (la c.toks) = 2 := by simp [wt, hla30]
            omega
    | none =>
      by_cases hr0 : (yyDefact.getD g.st 0).toNat = 0
      · right
        refine ⟨.ok (false, c.drv.error), ?_, yyErr_good hkind⟩
        unfold yyStep
        rw [hst]
        simp only [h10, hl, hr0, if_true, if_false, yyErr]
      · generalize hr : (yyDefact.getD g.st 0).toNat = r at hr0
        obtain ⟨hback, hlen, hr2, hr28⟩ := back_facts hlt h10 hr hr0
        have hg3 : g.st ≠ 3 := by
          intro h
          rw [h] at hr
          have : (yyDefact.getD 3 0).toNat = 0 := by decide
          omega
        have hnone := houts hg3 h10
        obtain ⟨P, g0, R, hG, hP, hsegs, hgo, hok0⟩ := back_spec (rhsRev r) (g :: G) g G rfl hok hback (rhs_ne0 r hr28)
        have hPl : P.length = (rhsRev r).length := by rw [← hP]; simp
        have hstk : c.stack = P.map (fun g => (g.st, g.val)) ++ (g0 :: R).map (fun g => (g.st, g.val)) := by
          rw [hst, ← List.map_append, ← hG]; rfl
        have htake : (c.stack.take (yyR2.getD r 0).toNat).map Prod.snd = P.map GEnt.val := by
          rw [hlen, ← hPl, hstk, List.take_append_of_le_length (by simp), List.take_of_length_le (by simp)]
          simp [Function.comp_def]
        have hdrop : c.stack.drop (yyR2.getD r 0).toNat = (g0 :: R).map (fun g => (g.st, g.val)) := by
          rw [hlen, ← hPl, hstk, List.drop_left' (by simp)]
        have hstep : yyStep mk c = yyReduce mk c r := by
          unfold yyStep
          rw [hst]
          simp only [h10, hl, hr, hr0, if_false]
        have hitem' : r = 25 ∨ r = 26 → ∃ g ∈ P.getLast?, IsItem g.seg := by
          intro h
          have hit := List.all_eq_true.mp tab_item g.st (by simp [states]; omega)
          simp only [hr, Bool.and_eq_true, Bool.or_eq_true, Bool.not_eq_true', beq_eq_false_iff_ne, beq_iff_eq] at hit
          rcases h with h | h
          · subst h
            have h23 : g.st = 23 := by rcases hit.1 with h | h; exact absurd rfl h; exact h
            simp only [rhsRev, segs_cons, segs_nil] at hsegs
            obtain ⟨a1, _, rfl, s1, a2, _, rfl, s2, rfl⟩ := hsegs
            simp only [List.cons_append, List.nil_append, List.cons.injEq] at hG
            obtain ⟨rfl, rfl⟩ := hG
            exact ⟨a2, by simp, hok.2.2.2.1 h23⟩
          · subst h
            have hall := Or.resolve_left hit.2 (fun h => h rfl)
            simp only [rhsRev, segs_cons, segs_nil] at hsegs
            obtain ⟨a1, _, rfl, s1, a2, _, rfl, s2, a3, _, rfl, s3, rfl⟩ := hsegs
            simp only [List.cons_append, List.nil_append, List.cons.injEq] at hG
            obtain ⟨rfl, rfl⟩ := hG
            have hs1 : stos g.st = 35 := by simp [rhsRev] at hP; exact hP.1
            have htr := hok.2.1
            rw [hs1] at htr
            have ha2 := hok.2.2.2.2.2
            have h23 := List.all_eq_true.mp hall a2.st (by simp [states]; exact ha2.lt)
            simp only [htr, decide_true, Bool.not_true, Bool.false_or, beq_iff_eq] at h23
            exact ⟨a3, by simp, ha2.2.2.2.1 h23⟩
        have hact := act_sound (mk := mk) hr2 hr28 (d := c.drv) hsegs hitem'
        have hPT : segsOf P <:+: T := by
          rw [← htk, hG, segsOf_append]
          exact ⟨segsOf (g0 :: R), c.toks, rfl⟩
        obtain ⟨hr1a, hr1b, hr132, hr133, hr135⟩ := tab_r1 r hr28 hr2
        rw [hstep]
        unfold yyReduce
        simp only [htake, hdrop]
        revert hact
        cases hA : act mk r (P.map GEnt.val) c.drv with
        | throw e => intro h; exact h.elim
        | abort => intro h; exact h.elim
        | ub =>
          intro h
          right
          refine ⟨_, rfl, ?_⟩
          rcases h with ⟨cs, h1, h2, h4⟩ | ⟨h3, a, ha, hv⟩
          · exact ⟨cs, h1, h2 ▸ hPT, h4⟩
          · exfalso
            subst h3
            simp only [rhsRev, segs_cons, segs_nil] at hsegs
            obtain ⟨a1, _, rfl, s1, a2, _, rfl, s2, rfl⟩ := hsegs
            simp only [List.cons_append, List.nil_append, List.cons.injEq] at hG
            obtain ⟨rfl, rfl⟩ := hG
            simp only [List.mem_cons, List.not_mem_nil, or_false] at ha
            simp [rhsRev] at hP
            obtain ⟨n0, hn0⟩ := Option.isSome_iff_exists.mp hgo
            have h0 : g0.st = 0 := trans_32 (n := n0) hn0
            have hR := hok0.bottom h0
            subst hR
            have hs0 : stos 0 = 0 := by decide
            have hval : g.val = .attrs none := by
              rcases ha with rfl | rfl
              · exact hv
              · exfalso
                rw [s2.invVal rfl] at hv
                cases hv
            obtain ⟨h, hh, hb⟩ := hok.2.2.2.2.1 hval
            simp only [List.mem_cons, List.not_mem_nil, or_false] at hh
            rcases hh with rfl | rfl
            · unfold isBig at hb; omega
            · unfold isBig at hb; rw [h0, hs0] at hb; omega
        | ok o =>
          cases o with
          | none =>
            intro _
            right
            refine ⟨_, rfl, ?_⟩
            show if b then c.drv.policy = none else c.drv.attrs = none
            split
            · exact hnone.1
            · exact hnone.2
          | some x =>
            rintro ⟨hsym, hsame, hnum, hattrs, hitm, hkd⟩
            left
            obtain ⟨n, hn⟩ := Option.isSome_iff_exists.mp hgo
            obtain ⟨hn75, hnst, hnpos, hng⟩ := goto_facts hok0.lt (by omega) hn
            obtain ⟨hngo, hn10, hn23, hn3⟩ := hng (by omega)
            let g' : GEnt := { st := n, val := x.1, seg := segsOf P }
            refine ⟨_, g' :: g0 :: R, rfl, ⟨?_, ?_, ?_, hgood, ?_, ?_, ?_, ?_, ?_⟩, ?_⟩
            · simp [g', hngo]
            · refine ⟨hn75, ?_, ?_, ?_, ?_, hok0⟩
              · show trans g0.st (stos n) = some n
                rw [hnst]; exact hn
              · show SymOk (stos n) x.1 (segsOf P)
                rw [hnst]; exact hsym
              · intro h; exact absurd h hn23
              · intro hv
                obtain ⟨h23, hne⟩ := hattrs hv
                by_cases hex : ∃ h ∈ g0 :: R, isBig h
                · exact hex
                · exfalso
                  apply hne
                  apply hcnt
                  rw [hG]
                  subst h23
                  simp only [rhsRev, segs_cons, segs_nil] at hsegs
                  obtain ⟨a1, _, rfl, s1, rfl⟩ := hsegs
                  simp [rhsRev] at hP
                  intro a ha hb
                  simp only [List.cons_append, List.nil_append] at ha
                  rcases List.mem_cons.mp ha with rfl | ha
                  · unfold isBig at hb; omega
                  · exact hex ⟨a, ha, hb⟩
            · rw [← htk, hG, segsOf_append]
              simp only [segsOf, g', List.append_assoc]
            · intro a ha h3 ha10
              simp at ha
              subst ha
              have h23 : r ≠ 2 ∧ r ≠ 3 := by
                simp only [g'] at h3
                omega
              have hs := hsame h23.1 h23.2
              exact ⟨hs.1.trans hnone.1, hs.2.1.trans hnone.2⟩
            · intro h
              have hnb := h g' (by simp)
              simp only [isBig, g', hnst] at hnb
              have h45 : r = 4 ∨ r = 5 := by omega
              show x.2.attrCount = []
              rw [hnum h45]
              apply hcnt
              rw [hG]
              intro a ha
              rcases List.mem_append.mp ha with ha | ha
              · have hm : stos a.st ∈ P.map (fun g => stos g.st) := List.mem_map_of_mem (f := fun g => stos g.st) ha
                rw [hP] at hm
                rcases h45 with rfl | rfl <;> simp [rhsRev] at hm <;> unfold isBig <;> omega
              · exact h a (List.mem_cons_of_mem _ ha)
            · intro a ha h35
              simp at ha
              subst ha
              simp only [g', hnst] at h35
              by_cases hm : r = 24 ∨ r = 25 ∨ r = 26
              · right
                intro h30
                have hsep := List.all_eq_true.mp tab_sep g.st (by simp [states]; omega)
                rw [h30] at hl
                rw [hl, hr] at hsep
                rcases hm with rfl | rfl | rfl <;> simp at hsep
              · left
                have := hr135.mp h35
                exact hitm (by omega)
            · intro a ha ha10
              simp at ha
              subst ha
              exact absurd ha10 hn10
            · exact hkd.trans hkind
            · have hsum : (((g :: G).map fun g => wt (stos g.st)).sum) =
                  ((rhsRev r).map wt).sum + ((g0 :: R).map fun g => wt (stos g.st)).sum := by
                rw [hG, List.map_append, List.sum_append, ← hP, List.map_map]; rfl
              have hw := wt_rhs r hr28 hr2
              have : wt (stos n) = 1 := by rw [hnst]; unfold wt; rw [if_neg (by omega)]
              simp only [pmeas, h10, if_false, g', hn10]
              rw [hsum]
              simp only [List.map_cons, List.sum_cons, this]
              omega

/-- Enough rounds always end in an admissible result. -/
theorem run_good {b : Bool} {T : List Tok} : ∀ (fuel : Nat) (G : List GEnt) (c : PConf), PInv b T G c →
    pmeas G c < fuel → PGood mk b T (yyRun mk fuel c)
  | 0, _, _, _, h => absurd h (Nat.not_lt_zero _)
  | fuel + 1, G, c, hi, h => by
    simp only [yyRun]
    rcases step_inv (mk := mk) hi with ⟨c', G', hs, hi', hm⟩ | ⟨r, hs, hg⟩
    · rw [hs]; exact run_good fuel G' c' hi' (by omega)
    · rw [hs]; exact hg

theorem parse_good (b : Bool) (d : Drv) (hb : d.isPolicy = b) (hp : d.policy = none) (ha : d.attrs = none)
    (hc : d.attrCount = []) (T : List Tok) (hT : ∀ t ∈ T, TokOk t) :
    PGood mk b T (yyRun mk (yyFuel T.length) ⟨[(0, .none)], d, T⟩) := by
  let g : GEnt := { st := 0, val := .none, seg := [] }
  refine run_good _ [g] _ ⟨rfl, ⟨rfl, rfl⟩, by simp [segsOf, g], hT, ?_, fun _ => hc, ?_, ?_, hb⟩ ?_
  · intro _ _ _ _; exact ⟨hp, ha⟩
  · intro a h h35
    simp at h; subst h
    have : stos 0 = 0 := by decide
    simp [g, this] at h35
  · intro a h h10
    simp at h; subst h
    simp [g] at h10
  · have : wt (stos 0) = 2 := by decide
    simp [pmeas, g, yyFuel, this]; omega

end Abe
