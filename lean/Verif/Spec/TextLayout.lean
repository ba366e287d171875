import Verif.Spec.Grammar
/-!
# Texts that read alike
-/
set_option autoImplicit false
namespace Abe

/-- Two texts read alike: both are accepted or neither is, as policies and as lists, and what is read differs at most in
the remembered text. -/
def ReadAlike (mk : Mktime) (s s' : Bytes) : Prop :=
  (∀ p, createPolicyTree mk s = .ok (some p) → createPolicyTree mk s' = .ok (some { p with compact := s' })) ∧
  (∀ p, createPolicyTree mk s' = .ok (some p) → createPolicyTree mk s = .ok (some { p with compact := s })) ∧
  (∀ al, createAttributeList mk s = .ok (some al) → ∃ al', createAttributeList mk s' = .ok (some al') ∧
    al'.attrs = al.attrs ∧ al'.orig = al.orig) ∧
  (∀ al, createAttributeList mk s' = .ok (some al) → ∃ al', createAttributeList mk s = .ok (some al') ∧
    al'.attrs = al.attrs ∧ al'.orig = al.orig)

/-- Spaces, tabs and carriage returns. -/
def Blanks (w : Bytes) : Prop := ∀ b ∈ w, b = 32 ∨ b = 9 ∨ b = 13

end Abe
