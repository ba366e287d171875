import Verif.Model.Scheme
/-! # How many rows a decryption uses, and a policy that needs many -/
set_option autoImplicit false
namespace Abe
namespace PairStack
open Scheme

/-- Recovering the coefficients of the policy `text` for the attributes `attrs` gives `n` rows. -/
def Uses (q : Nat) [Fact q.Prime] {G1 G2 GT : Type} (env : Env G1 G2 GT) (text : Bytes) (attrs : List Bytes) (n : Nat) : Prop :=
  ∃ pol o p', createPolicyTree env.mktime text = .ok pol ∧
    recoverCoefficients (F := ZMod q) env.sort env.ndebug {} pol attrs = .ok (true, o, p') ∧ o.results.length = n

/-- The policy and the attributes that decrypting `ct` with `key` brings together. -/
def Meets {G1 G2 GT : Type} (sch : Scheme) (key ct : Container G1 G2 GT) (text : Bytes) (attrs : List Bytes) : Prop :=
  match sch with
  | .cp => ∃ al, (Container.getComponent key b!"input").1 = .ok (.attrs al) ∧ al.attrs = attrs ∧ getBytes ct b!"policy" = .ok (some text)
  | .kp => ∃ al, (Container.getComponent ct b!"attributes").1 = .ok (.attrs al) ∧ al.attrs = attrs ∧ getBytes key b!"input" = .ok (some text)

/-- The text `a and a and … and a ` with `n` operators. -/
def andChain (n : Nat) : Bytes := b!"a " ++ (List.replicate n b!"and a ").flatten

end PairStack
end Abe
