import Verif.Model.Scheme
/-!
# Altered ciphertexts (specification for C131)

Independent of how the code decrypts.
-/
set_option autoImplicit false
namespace Abe
namespace Authentic
variable {G1 G2 GT : Type}

/-- Byte-wise exclusive or of two strings, cut to the shorter one. -/
def xorBytes (a b : Bytes) : Bytes := List.zipWith (fun x y => x ^^^ y) a b

/-- Two ciphertexts that differ at most in the component `_ED`. -/
def SameButData (a b : Ciphertext G1 G2 GT) : Prop :=
  a.version = b.version ∧ a.alg = b.alg ∧ a.uid = b.uid ∧ ∀ n, n ≠ b!"_ED" → SMap.find n a.comps = SMap.find n b.comps

/-- The components of a ciphertext that belong to a scheme: the policy or the attributes, one group element for the ciphertext and
those for rows or attributes. -/
def Belongs : Scheme → Bytes → Prop
  | .cp, n => n = b!"policy" ∨ n = b!"Cprime" ∨ (∃ l, n = b!"C_" ++ l) ∨ ∃ l, n = b!"D_" ++ l
  | .kp, n => n = b!"attributes" ∨ n = b!"Cpr2" ∨ ∃ l, n = b!"C_" ++ l

end Authentic
end Abe
