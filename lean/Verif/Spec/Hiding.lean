import Verif.Model.Scheme
import Verif.Spec.Policy
/-!
# Messages hidden by masks (specification for C132)

The hash function as a random function: its answers to the inputs of the mask of a session key are open, all others are fixed.
-/
set_option autoImplicit false
namespace Abe
namespace Hiding

/-- An input of the hash function that makes mask bytes for the session key `K`: a counter, the byte `2A` and the key. -/
def MaskInput (K x : Bytes) : Prop := ∃ i, x = i :: 0x2A :: K

/-- The answers to the 256 inputs of the mask of a key: 32 bytes each. -/
abbrev Answers := UInt8 → Fin 32 → UInt8

/-- The hash function `md`, except for the inputs of the mask of `K`, where it answers `f`. -/
def answering (md : Bytes → Bytes) (K : Bytes) (f : Answers) : Bytes → Bytes
  | i :: pre :: rest => if pre = 0x2A ∧ rest = K then List.ofFn (f i) else md (i :: pre :: rest)
  | x => md x

/-- The names that an encryption uses: attributes and the labels of the rows of a policy. -/
def usedNames : FInput → List Bytes
  | .null => []
  | .attrs l => l.attrs
  | .policy p => match p.root with
    | some t => (leaves t).map Leaf.label ++ (leaves t).map (uniqueLabel (if p.hasDup then p.dupCount else []))
    | none => []

end Hiding
end Abe
