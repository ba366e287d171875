import Verif.Model.Residue
/-! # Memory that holds no secrets (C130) -/
set_option autoImplicit false
namespace Abe
namespace Residue

/-- Nothing was written into the block, or only zeros are left of it. -/
def Clean (b : Block) : Prop := ∀ c ∈ b, c = none ∨ c = some 0

/-- The bytes `s` can be read, one after the other, in a block. -/
def Readable (s : Bytes) (g : List Block) : Prop := ∃ b ∈ g, ∃ l r : Block, b = l ++ s.map some ++ r

/-- The blocks that a computation leaves, begun with no blocks left. -/
def left {α : Type} (m : Left α) : List Block := (m []).2

/-- The result of a computation. -/
def result {α : Type} (m : Left α) : Res α := (m []).1

/-- An `OpenABESymKey` that is given the keys one after the other and then destroyed. -/
def symKeyLife : List Bytes → Vec → Left Unit
  | [], v => destroyKey v
  | k :: ks, v => do
    let v ← setKey v k
    symKeyLife ks v

end Residue
end Abe
