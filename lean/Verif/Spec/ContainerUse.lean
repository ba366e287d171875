import Verif.Model.ContainerUse
/-!
# What a container holds under a name (specification of C153)

Only the calls that mention the name matter. `Slot` uses no definition of the model but the types of calls and objects.
-/
set_option autoImplicit false
namespace Abe

/-- What is found under a name: nothing, an entry without an object, or an object. -/
inductive Slot (G1 G2 GT : Type)
  | absent
  | empty
  | holds (o : Obj G1 G2 GT)

namespace Slot

variable {G1 G2 GT : Type}

/-- What is stored for an object: policies cannot be copied, and nothing is stored for a null pointer. -/
def stored (s : Slot G1 G2 GT) : Obj G1 G2 GT → Slot G1 G2 GT
  | .null => s
  | .policy _ => .empty
  | o => .holds o

/-- What a call makes of the slot of `n`. A lookup leaves an empty entry where nothing was. -/
def next (n : Bytes) (s : Slot G1 G2 GT) : Container.Call G1 G2 GT → Slot G1 G2 GT
  | .set m o => if m = n then stored s o else s
  | .get m => if m = n then (match s with | .absent => .empty | s => s) else s
  | .getAs _ m => if m = n then (match s with | .absent => .empty | s => s) else s
  | .delete m => if m = n then .absent else s
  | _ => s

/-- The slot of `n` after some calls on a new container. -/
def of (n : Bytes) (cs : List (Container.Call G1 G2 GT)) : Slot G1 G2 GT := cs.foldl (next n) .absent

/-- Whether an object has the type that a typed getter asks for. -/
inductive HasKind : Container.Kind → Obj G1 G2 GT → Prop
  | zp v : HasKind .zp (.zp v)
  | g1 x : HasKind .g1 (.g1 x)
  | g2 x : HasKind .g2 (.g2 x)
  | gt x : HasKind .gt (.gt x)
  | bytes b : HasKind .bytes (.bytes b)
  | int n : HasKind .int (.int n)

end Slot
end Abe
