import Verif.Model.Scanner
import Verif.Model.Policy
/-!
# Words, numbers and signs (include/lsss/zscanner.ll)
-/
set_option autoImplicit false
namespace Abe

/-- Blank: space, tab, carriage return. -/
def isBlank (b : UInt8) : Bool := b = 32 || b = 9 || b = 13

/-- Decimal digit. -/
def isDigit (b : UInt8) : Bool := 48 ≤ b && b ≤ 57

/-- Characters that may begin an attribute: letters and `$ . / [ \ ] ~`. -/
def isStart (b : UInt8) : Bool :=
  (65 ≤ b && b ≤ 90) || (97 ≤ b && b ≤ 122) || b = 36 || b = 46 || b = 47 || b = 91 || b = 92 || b = 93 ||
    b = 126

/-- Characters that may follow in an attribute: also digits and `! # % & * , - : @ ^ _ { }`
without the ones that stand alone. -/
def isWord (b : UInt8) : Bool :=
  isStart b || isDigit b || b = 33 || b = 35 || b = 37 || b = 38 || b = 42 || b = 44 || b = 45 || b = 58 ||
    b = 64 || b = 94 || b = 95 || b = 123 || b = 125

/-- `<`, `>`, `=`. -/
def isCmp (b : UInt8) : Bool := b = 60 || b = 62 || b = 61

/-- The words that are not attributes: keywords, and words containing `expint`. -/
def isReserved (s : Bytes) : Bool :=
  s = b!"[0]:" || s = b!"[1]:" || s = b!"or" || s = b!"OR" || s = b!"and" || s = b!"AND" || s = b!"in" ||
    s = b!"IN" || hasSub b!"expint" s

/-- A word that the scanner delivers as an attribute. -/
def isName : Bytes → Bool
  | [] => false
  | b :: w => isStart b && w.all isWord && !isReserved (b :: w)

/-- The tokens that texts consist of: names, and numbers from 1 to 4294967294. -/
def TokOk : Tok → Prop
  | .leaf s => isName s = true
  | .uint n => 1 ≤ n.toNat ∧ n.toNat < 2 ^ 32 - 1
  | _ => True

/-- How a token is written. -/
def Tok.text : Tok → Bytes
  | .leaf s => s
  | .uint n => natDec n.toNat
  | .or => b!"or"
  | .and => b!"and"
  | .eq => b!"=="
  | .leq => b!"<="
  | .geq => b!">="
  | .inn => b!"in"
  | .startPolicy => b!"[0]:"
  | .startAttr => b!"[1]:"
  | .eol => [10]
  | .error => []
  | .chr b => [b]

/-- Signs that stand for themselves. -/
def Tok.sign : Tok → Bool
  | .chr b => b ∈ [35, 40, 41, 44, 45, 60, 61, 62, 123, 124, 125]
  | .error => false
  | _ => true

/-- The tokens written one after the other, each followed by a space. -/
def spaced (ts : List Tok) : Bytes := ts.flatMap (fun t => t.text ++ [32])

end Abe
