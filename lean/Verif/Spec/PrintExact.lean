import Verif.Spec.Grammar
/-!
# Reading printed policies
-/
set_option autoImplicit false
namespace Abe

/-- The attribute is `[0]` or `[1]` followed by at least two colons. It is printed with one, and that is a keyword. -/
def Bracketed (s : Bytes) : Prop := ∃ n, s = b!"[0]::" ++ List.replicate n 58 ∨ s = b!"[1]::" ++ List.replicate n 58

end Abe
