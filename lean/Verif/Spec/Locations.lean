import Verif.Model.Locations
import Verif.Spec.Grammar
/-!
# Places in a text, and tokens that can be continued
-/
set_option autoImplicit false
namespace Abe

/-- The place behind the text `pre`: lines and columns count from 1, a line ends with a newline, and every byte is a column. -/
def posAt (pre : Bytes) : Pos :=
  ⟨1 + (pre.filter fun b => b = 10).length, 1 + (pre.reverse.takeWhile fun b => b ≠ 10).length⟩

/-- In the text `s`, `text` after `pre` is the `i`-th token, which is `t`. -/
structure TokenAt (s : Bytes) (i : Nat) (t : Tok) (pre text : Bytes) : Prop where
  split : ∃ post, s = pre ++ text ++ post ∧ lex (text ++ post) = t :: lex post ∧ lex post = (lex s).drop (i + 1)
  token : lex text = [t]
  tight : ∀ b ∈ text, isBlank b = false

/-- The place of a token; a newline is said to be at the beginning of the next line. -/
def placeOf (pre : Bytes) (t : Tok) (text : Bytes) : Loc :=
  if t = .eol then ⟨posAt (pre ++ text), posAt (pre ++ text)⟩ else ⟨posAt pre, posAt (pre ++ text)⟩

/-- The tag that the driver puts in front of a text. -/
def tagOf (b : Bool) : Bytes := if b then b!"[0]: " else b!"[1]: "

/-- The tokens begin a policy (or an attribute list, in the form the parser reads) that can be written down. -/
def Viable (isPolicy : Bool) (ts : List Tok) : Prop :=
  if isPolicy then ∃ e : Expr, e.valid = true ∧ (∀ t ∈ e.toks, TokOk t) ∧ ts <+: e.toks
  else ∃ a : AExpr, a.valid = true ∧ a.canon = true ∧ (∀ t ∈ a.toks, TokOk t) ∧ ts <+: a.toks

/-- The tokens are a policy (or an attribute list, in the form the parser reads). -/
def Complete (isPolicy : Bool) (ts : List Tok) : Prop :=
  if isPolicy then ∃ e : Expr, e.valid = true ∧ ts = e.toks
  else ∃ a : AExpr, a.valid = true ∧ a.canon = true ∧ ts = a.toks

end Abe
