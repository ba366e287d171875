import Verif.Model.Parser
import Verif.Spec.Numeric
import Verif.Spec.Text
/-!
# The policy and attribute-list grammars (include/lsss/zparser.yy:112-185)

Derivation trees, the tokens they derive, the rules of precedence, and what they mean. Nothing here refers
to the parsing tables or to the parsing loop.
-/
set_option autoImplicit false
namespace Abe

/-- `number`. -/
inductive NumSyn
  | exp (n bits : UInt32)
  | flex (n : UInt32)
  deriving DecidableEq, Repr

namespace NumSyn
/-- Tokens of a number. -/
def toks : NumSyn → List Tok
  | exp n b => [.uint n, .chr 35, .uint b]
  | flex n => [.uint n]
/-- Value and width. -/
def val : NumSyn → UInteger
  | exp n b => createExpint n b
  | flex n => createFlexint n
/-- The width is supported and the value fits. -/
def valid : NumSyn → Bool
  | exp n b => checkValidBit n b
  | flex _ => true
end NumSyn

/-- Comparison operators. -/
inductive CmpOp
  | lt | gt | le | ge | eq
  deriving DecidableEq, Repr

/-- Token of an operator before a number. -/
def CmpOp.tok : CmpOp → Tok
  | lt => .chr 60
  | gt => .chr 62
  | le => .leq
  | ge => .geq
  | eq => .eq

/-- Token of an operator before a date: equality is a single `=`. -/
def CmpOp.dateTok : CmpOp → Tok
  | eq => .chr 61
  | o => o.tok

/-- The condition on a number. -/
def CmpOp.cond : CmpOp → UInteger → NumCond
  | lt => .lt
  | gt => .gt
  | le => .le
  | ge => .ge
  | eq => .eq

/-- The `policy` rules about numbers and dates. -/
inductive CondSyn
  | cmp (op : CmpOp) (s : Bytes) (n : NumSyn)
  | rangeO (s : Bytes) (lo hi : NumSyn)
  | rangeC (s : Bytes) (lo hi : NumSyn)
  | date (op : CmpOp) (s m : Bytes) (d y : NumSyn)
  | dateRange (s m : Bytes) (d1 d2 y : NumSyn)
  deriving DecidableEq, Repr

namespace CondSyn
/-- Tokens of a condition. -/
def toks : CondSyn → List Tok
  | cmp op s n => .leaf s :: op.tok :: n.toks
  | rangeO s lo hi => .leaf s :: .inn :: .chr 40 :: (lo.toks ++ .chr 45 :: (hi.toks ++ [.chr 41]))
  | rangeC s lo hi => .leaf s :: .inn :: .chr 123 :: (lo.toks ++ .chr 45 :: (hi.toks ++ [.chr 125]))
  | date op s m d y => .leaf s :: op.dateTok :: .leaf m :: (d.toks ++ .chr 44 :: y.toks)
  | dateRange s m d1 d2 y =>
    .leaf s :: .chr 61 :: .leaf m :: (d1.toks ++ .chr 45 :: (d2.toks ++ .chr 44 :: y.toks))
/-- All numbers are valid. -/
def valid : CondSyn → Bool
  | cmp _ _ n => n.valid
  | rangeO _ lo hi => lo.valid && hi.valid
  | rangeC _ lo hi => lo.valid && hi.valid
  | date _ _ _ d y => d.valid && y.valid
  | dateRange _ _ d1 d2 y => d1.valid && (d2.valid && y.valid)
/-- The numeric attribute the condition is about. -/
def base : CondSyn → Bytes
  | cmp _ s _ => s
  | rangeO s _ _ => s
  | rangeC s _ _ => s
  | date _ s _ _ _ => dateAttr s
  | dateRange s _ _ _ _ => dateAttr s
/-- The condition on its value; dates are day numbers. -/
def cond (mk : Mktime) : CondSyn → NumCond
  | cmp op _ n => op.cond n.val
  | rangeO _ lo hi => .inOpen lo.val hi.val
  | rangeC _ lo hi => .inClosed lo.val hi.val
  | date op _ m d y => op.cond ⟨validateDate mk (getMonth m) d.val y.val, 32⟩
  | dateRange _ m d1 d2 y =>
    let r1 := mk (mkTm (getMonth m) d1.val y.val)
    .inClosed ⟨toDays r1.1, 32⟩ ⟨toDays (mk { r1.2 with mday := d2.val.val.toInt32.toInt }).1, 32⟩
end CondSyn

/-- A condition on a date whose day number is 0 or 2^32 - 1, which the driver cannot compare with. -/
def CondSyn.BadDate (mk : Mktime) (c : CondSyn) : Prop :=
  Tok.chr 44 ∈ c.toks ∧ ∃ n ∈ (c.cond mk).nums, n.val.toNat = 0 ∨ n.val.toNat = 2 ^ 32 - 1

/-- Derivation trees of `policy`. The grammar is ambiguous: `canon` says which tree the precedence
declarations (zparser.yy:76-77) select. -/
inductive Expr
  | leaf (s : Bytes)
  | cond (c : CondSyn)
  | paren (e : Expr)
  | or (l r : Expr)
  | and (l r : Expr)
  deriving DecidableEq, Repr

namespace Expr
/-- Tokens derived. -/
def toks : Expr → List Tok
  | leaf s => [.leaf s]
  | cond c => c.toks
  | paren e => .chr 40 :: (e.toks ++ [.chr 41])
  | or l r => l.toks ++ .or :: r.toks
  | and l r => l.toks ++ .and :: r.toks
/-- All numbers are valid. -/
def valid : Expr → Bool
  | leaf _ => true
  | cond c => c.valid
  | paren e => e.valid
  | or l r => l.valid && r.valid
  | and l r => l.valid && r.valid
/-- Top is an `or`. -/
def isOr : Expr → Bool
  | or _ _ => true
  | _ => false
/-- Top is an `and`. -/
def isAnd : Expr → Bool
  | and _ _ => true
  | _ => false
/-- `and` binds tighter than `or`; both group to the left. -/
def canon : Expr → Bool
  | leaf _ => true
  | cond _ => true
  | paren e => e.canon
  | or l r => l.canon && r.canon && !r.isOr
  | and l r => l.canon && r.canon && !l.isOr && !r.isOr && !r.isAnd
/-- The tree the grammar actions build, left to right. -/
def eval (mk : Mktime) : Expr → Drv → Res (TNode × Drv)
  | leaf s, d => leafNode d s
  | cond c, d => (c.cond mk).compile d c.base
  | paren e, d => eval mk e d
  | or l r, d => do
    let x ← eval mk l d
    let y ← eval mk r x.2
    .ok (kof2 1 x.1 y.1, y.2)
  | and l r, d => do
    let x ← eval mk l d
    let y ← eval mk r x.2
    .ok (kof2 2 x.1 y.1, y.2)
end Expr

/-- One attribute of a list. -/
inductive Item
  | leaf (s : Bytes)
  | num (s : Bytes) (n : NumSyn)
  | date (s m : Bytes) (d y : NumSyn)
  deriving DecidableEq, Repr

namespace Item
/-- Tokens of an item. -/
def toks : Item → List Tok
  | leaf s => [.leaf s]
  | num s n => .leaf s :: .chr 61 :: n.toks
  | date s m d y => .leaf s :: .chr 61 :: .leaf m :: (d.toks ++ .chr 44 :: y.toks)
/-- All numbers are valid. -/
def valid : Item → Bool
  | leaf _ => true
  | num _ n => n.valid
  | date _ _ d y => d.valid && y.valid
/-- What the driver makes of it. -/
def eval (mk : Mktime) : Item → Drv → Res (Option (List Bytes) × Drv)
  | leaf s, d => leafAttr d s
  | num s n, d => .ok (some (attrNum d s n.val).1, (attrNum d s n.val).2)
  | date s m dd y, d =>
    let r := setDateAttr mk d s m (getMonth m) dd.val y.val
    .ok (some r.1, r.2)
end Item

/-- Derivation trees of `attrlist`. -/
inductive AExpr
  | item (i : Item)
  | pre (a : AExpr)
  | post (a : AExpr)
  | cat (a b : AExpr)
  deriving DecidableEq, Repr

namespace AExpr
/-- Tokens derived. -/
def toks : AExpr → List Tok
  | item i => i.toks
  | pre a => .chr 124 :: a.toks
  | post a => a.toks ++ [.chr 124]
  | cat a b => a.toks ++ .chr 124 :: b.toks
/-- All numbers are valid. -/
def valid : AExpr → Bool
  | item i => i.valid
  | pre a => a.valid
  | post a => a.valid
  | cat a b => a.valid && b.valid
/-- Is it a single item? -/
def isItem : AExpr → Bool
  | item _ => true
  | _ => false
/-- The derivations the generated parser finds: lists group to the right. -/
def canon : AExpr → Bool
  | item _ => true
  | pre a => a.canon
  | post a => a.isItem
  | cat a b => a.isItem && b.canon
/-- The list the grammar actions build, left to right. -/
def eval (mk : Mktime) : AExpr → Drv → Res (Option (List Bytes) × Drv)
  | item i, d => i.eval mk d
  | pre a, d => do
    let x ← eval mk a d
    .ok (concatAttr x.1 none, x.2)
  | post a, d => do
    let x ← eval mk a d
    .ok (concatAttr x.1 none, x.2)
  | cat a b, d => do
    let x ← eval mk a d
    let y ← eval mk b x.2
    .ok (concatAttr x.1 y.1, y.2)
end AExpr

/-- The items of a list, in order. -/
def AExpr.items : AExpr → List Item
  | item i => [i]
  | pre a => a.items
  | post a => a.items
  | cat a b => a.items ++ b.items

namespace Item
/-- The numeric attribute that an item sets, with value and width; dates are day numbers of the attribute
`prefix:time`. -/
def value (mk : Mktime) : Item → Option (Bytes × UInt32 × Nat)
  | leaf _ => none
  | num s n => some (s, n.val.val, n.val.bits)
  | date p m d y => some (p ++ b!":time", validateDate mk (getMonth m) d.val y.val, 32)
/-- The strings that an item stands for. -/
def strings (mk : Mktime) (i : Item) : List Bytes :=
  match i with
  | leaf s => [s]
  | num s n => assignStmt s n.val
  | date p m d y => assignStmt (p ++ b!":time") ⟨validateDate mk (getMonth m) d.val y.val, 32⟩
end Item

/-- The list says what a numeric attribute is: the first item that sets it. -/
def itemsNum (mk : Mktime) (is : List Item) (base : Bytes) : Option (UInt32 × Nat) :=
  is.findSome? fun i => match i.value mk with
    | some (b, v) => if b = base then some v else none
    | none => none

/-- No numeric attribute is set twice, and no name is used both as a plain attribute and as a number. -/
def ItemsOk (mk : Mktime) (is : List Item) : Prop :=
  (is.filterMap fun i => (i.value mk).map Prod.fst).Nodup ∧ ∀ s n, Item.num s n ∈ is → Item.leaf s ∉ is

/-- The tokens up to the first one that the parser takes for the end of input. -/
def effective (ts : List Tok) : List Tok := ts.takeWhile (fun t => t.sym ≠ 0)

namespace Expr
/-- The plain attributes. -/
def plain : Expr → List Bytes
  | leaf s => [s]
  | cond _ => []
  | paren e => e.plain
  | or l r => l.plain ++ r.plain
  | and l r => l.plain ++ r.plain
/-- The conditions on numbers and dates. -/
def conds : Expr → List CondSyn
  | leaf _ => []
  | cond c => [c]
  | paren e => e.conds
  | or l r => l.conds ++ r.conds
  | and l r => l.conds ++ r.conds
/-- Truth of the formula: `has` says which plain attributes are present, `num` gives the numeric attributes
their value and width. -/
def holds (mk : Mktime) (has : Bytes → Prop) (num : Bytes → Option (UInt32 × Nat)) : Expr → Prop
  | leaf s => has s
  | cond c => ∃ v w, num c.base = some (v, w) ∧ (∀ n ∈ (c.cond mk).nums, n.bits = w) ∧ (c.cond mk).holds v.toNat
  | paren e => e.holds mk has num
  | or l r => l.holds mk has num ∨ r.holds mk has num
  | and l r => l.holds mk has num ∧ r.holds mk has num
end Expr

/-- Every date in the formula has a day number between 1 and 2^32 - 2. -/
def Expr.DatesOk (mk : Mktime) (e : Expr) : Prop := ∀ c ∈ e.conds, ¬ c.BadDate mk

/-- The list `A` says about the numeric attribute `base` what `num` says. -/
def Assigns (A : List Bytes) (num : Bytes → Option (UInt32 × Nat)) (base : Bytes) : Prop :=
  match num base with
  | some (v, w) => (w = 4 ∨ w = 8 ∨ w = 16 ∨ w = 32) ∧ v.toNat < 2 ^ w ∧ Gives A base v w
  | none => ∀ s ∈ A, ¬ base ++ b!"_expint" <+: s

/-- A name without empty parts: it does not start or end with a colon and has no two colons in a row. -/
def PlainOk (s : Bytes) : Prop := NameOk s ∧ s.getLast? ≠ some 58

/-- All names in the formula are without empty parts. -/
def Expr.NamesOk (e : Expr) : Prop := (∀ s ∈ e.plain, PlainOk s) ∧ ∀ c ∈ e.conds, NameOk c.base

/-- The text `s` is the policy `e`: `e` is the derivation that precedence selects, widths and values are
supported, dates are in range and names have no empty parts. -/
structure PolicyText (mk : Mktime) (s : Bytes) (e : Expr) : Prop where
  toks : effective (lex s) = e.toks
  canon : e.canon = true
  valid : e.valid = true
  dates : e.DatesOk mk
  names : e.NamesOk

/-- The text `l` is the attribute list `a`, and `a` does not contradict itself. -/
structure ListText (mk : Mktime) (l : Bytes) (a : AExpr) : Prop where
  toks : effective (lex l) = a.toks
  canon : a.canon = true
  valid : a.valid = true
  items : ItemsOk mk a.items

/-- The formula `e` is true for the attributes listed in `a`. -/
def Expr.trueFor (mk : Mktime) (e : Expr) (a : AExpr) : Prop :=
  e.holds mk (fun s => Item.leaf s ∈ a.items) (itemsNum mk a.items)

/-- No `%` in any name. -/
def Expr.NoPercent (e : Expr) : Prop := (∀ s ∈ e.plain, (37 : UInt8) ∉ s) ∧ ∀ c ∈ e.conds, (37 : UInt8) ∉ c.base

/-- No name of the formula is another name of it, or of one of its markers, followed by `%` and a number. -/
def Expr.Unnumbered (e : Expr) : Prop :=
  ∀ (x : Bytes) (i : Nat), x ++ b!"%" ++ natDec i ∈ e.plain → x ∉ e.plain ∧ ∀ c ∈ e.conds, ¬ c.base ++ b!"_expint" <+: x

/-- No date in the text has the day number 0 or 2^32 - 1. -/
def NoBadDates (mk : Mktime) (s : Bytes) : Prop := ∀ c : CondSyn, c.valid = true → c.toks <:+: lex s → ¬ c.BadDate mk

end Abe
