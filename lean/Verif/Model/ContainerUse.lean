import Verif.Model.Container
/-!
# Calls on a container

One container as its user sees it: any list of calls of the public methods of `OpenABEContainer`
(include/abe/zcontainer.h:57-80), and of `serialize`, which `OpenABEKey` and `OpenABECiphertext` call. The objects the container
forgets without deleting them are the subject of C120; `zeroize` (src/abe/zcontainer.cpp:126-128) does nothing and is left out.
-/
set_option autoImplicit false
namespace Abe
namespace Container

variable {G1 G2 GT : Type}

/-- The types of the typed getters (include/abe/zcontainer.h:69-75). -/
inductive Kind
  | zp | g1 | g2 | gt | bytes | int

/-- `dynamic_cast` to one of these types (include/abe/zcontainer.h:69-75); `none` is the null pointer. -/
def cast : Kind → Obj G1 G2 GT → Option (Obj G1 G2 GT)
  | .zp, .zp v => some (.zp v)
  | .g1, .g1 x => some (.g1 x)
  | .g2, .g2 x => some (.g2 x)
  | .gt, .gt x => some (.gt x)
  | .bytes, .bytes b => some (.bytes b)
  | .int, .int n => some (.int n)
  | _, _ => none

/-- Calls of the methods of include/abe/zcontainer.h:53, 63-79. `names` is `getKeys`, `write` is `serialize`. A null pointer can be
given to `setComponent`. -/
inductive Call (G1 G2 GT : Type)
  | set (name : Bytes) (o : Obj G1 G2 GT)
  | get (name : Bytes)
  | getAs (k : Kind) (name : Bytes)
  | delete (name : Bytes)
  | names
  | count
  | write

/-- What the calls of include/abe/zcontainer.h:53, 63-79 return. -/
inductive Answer (G1 G2 GT : Type)
  | done
  | object (o : Obj G1 G2 GT)
  | pointer (o : Option (Obj G1 G2 GT))
  | deleted (b : Bool)
  | names (l : List Bytes)
  | count (n : UInt32)
  | bytes (b : Bytes)

/-- One call: src/abe/zcontainer.cpp:84-88 (`setComponent`), 97-106 (`getComponent`, also
called by the typed getters, include/abe/zcontainer.h:69-75), 108-116 (`deleteComponent`), 124
(`numComponents`, whose result is 32 bits wide), 135-144 (`serialize`), 227-235 (`getKeys`). -/
def step (cd : Codec G1 G2 GT) (c : Container G1 G2 GT) : Call G1 G2 GT → Res (Answer G1 G2 GT) × Container G1 G2 GT
  | .set name o =>
    match c.setComponent name o with
    | .ok c' => (.ok .done, c')
    | .throw e => (.throw e, c)
    | .ub => (.ub, c)
    | .abort => (.abort, c)
  | .get name => ((c.getComponent name).1 >>= fun o => .ok (.object o), (c.getComponent name).2)
  | .getAs k name => ((c.getComponent name).1 >>= fun o => .ok (.pointer (cast k o)), (c.getComponent name).2)
  | .delete name => (.ok (.deleted (c.deleteComponent name).1), (c.deleteComponent name).2)
  | .names => (.ok (.names (SMap.keys c)), c)
  | .count => (.ok (.count (UInt32.ofNat c.numComponents)), c)
  | .write => (Container.serialize cd c >>= fun b => .ok (.bytes b), c)

/-- The container after some calls; a new one is empty (src/abe/zcontainer.cpp:56-62). -/
def after (cd : Codec G1 G2 GT) (cs : List (Call G1 G2 GT)) : Container G1 G2 GT :=
  cs.foldl (fun c call => (step cd c call).2) []

end Container
end Abe
