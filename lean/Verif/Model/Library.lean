import Verif.Model.Container
import Verif.Model.Policy
/-!
# Library state, scheme identifiers, reference counts

src/abe/zabe.cpp, src/abe/zpairing.cpp:57-107, include/abe_lsss.h:67-102, utils/utils.cpp, utils/abecontext.cpp,
src/lsss/zobject.cpp and the destructor of the tree nodes.

What RELIC does is an argument of the calls that initialise it (`true`: `core_init` and `pc_param_set_any`
succeed). One thread (several in Model/LibThreads); `gLibraryState` is a plain global variable.
-/
set_option autoImplicit false
namespace Abe

/-! ### Library state -/

/-- `gLibraryState` (zabe.cpp:50) and whether RELIC has an initialised context. -/
structure Lib where
  ready : Bool := false
  math : Bool := false
  deriving DecidableEq, Repr

namespace Lib

/-- zpairing.cpp:57-64 `zMathInitLibrary`: the code. -/
def mathInit (ok : Bool) : Option Err := if ok then none else some .libraryNotInitialized

/-- zabe.cpp:65-88 `OpenABE_initialize`: `result` of the math library is overwritten. -/
def initialize' (l : Lib) (ok : Bool) : Option Err × Lib :=
  if l.ready = false then
    let _result := mathInit ok
    (none, { ready := true, math := ok })
  else (some .libraryNotInitialized, l)

/-- zabe.cpp:120-126 `InitializeOpenABE`: how it ends, and the state. -/
def init (l : Lib) (ok : Bool) : Res Unit × Lib :=
  let r := l.initialize' ok
  match r.1 with
  | none => (.ok (), r.2)
  | some _ => (.throw .runtimeError, r.2)

/-- zpairing.cpp:72-77 `zMathShutdownLibrary`, zabe.cpp:96-106 `OpenABE_shutdown` and 133-138 `ShutdownOpenABE`: always
succeeds. -/
def shutdown (_ : Lib) : Res Unit × Lib := (.ok (), { ready := false, math := false })

/-- zabe.cpp:108-112 `AssertLibInit`. -/
def assertInit (l : Lib) : Res Unit := if l.ready = false then .throw .runtimeError else .ok ()

/-- zpairing.cpp:89-95 (and 101-107) the constructor of `OpenABEPairing`; it reads the group order from the context of
RELIC, which is a null pointer if RELIC is not initialised (zelement_bp.cpp:66-70). -/
def newPairing (l : Lib) : Res Unit := do
  l.assertInit
  if l.math then .ok () else .ub

/-- `OpenABEStateContext` (include/abe_lsss.h:67-102): the constructor, over zabe.cpp:140-145 `initializeThread`. The
code of the math library is dropped. The object is `isInitialized_`. -/
def threadNew (l : Lib) (ok : Bool) : Bool × Lib := (true, { l with math := ok })

/-- zabe.cpp:140-145 `initializeThread`, called directly. -/
def threadInit (l : Lib) (isInit ok : Bool) : Bool × Lib :=
  if isInit = false then (isInit, { l with math := ok }) else (isInit, l)

/-- zabe.cpp:147-154 `shutdownThread`: calls the initialisation of the math library. -/
def threadShutdown (l : Lib) (isInit ok : Bool) : Bool × Lib :=
  if isInit then (false, { l with math := ok }) else (isInit, l)

/-- The calls an application makes. -/
inductive Call
  | init (ok : Bool)
  | shutdown
  | pairing
  deriving DecidableEq

/-- One call: how it ends, and the state. -/
def call (l : Lib) : Call → Res Unit × Lib
  | .init ok => l.init ok
  | .shutdown => l.shutdown
  | .pairing => (l.newPairing, l)

/-- The state after a sequence of calls from the start of the process. -/
def run (cs : List Call) : Lib := cs.foldl (fun l c => (l.call c).2) {}

end Lib

/-! ### Scheme identifiers -/

/-- utils/utils.cpp:33-61 `OpenABE_convertSchemeIDToString`; names in utils/common.h:37-42. -/
def schemeToString (id : UInt8) : Res Bytes :=
  if id = 0 then .ok b!"No Scheme"
  else if id = 70 ∨ id = 71 ∨ id = 72 then .ok b!"SK-ENC"
  else if id = 60 then .ok b!"EC-DSA"
  else if id = 100 then .ok b!"PK-ENC"
  else if id = 201 ∨ id = 101 then .ok b!"CP-ABE"
  else if id = 202 ∨ id = 102 then .ok b!"KP-ABE"
  else .throw .invalidSchemeId

/-- utils/utils.cpp:63-71 `OpenABE_convertStringToSchemeID`. -/
def stringToScheme (s : Bytes) : UInt8 :=
  if s = b!"SK-ENC" then 71
  else if s = b!"EC-DSA" then 60
  else if s = b!"PK-ENC" then 100
  else if s = b!"CP-ABE" then 101
  else if s = b!"KP-ABE" then 102
  else 0

/-- `OpenABEKeyType` (utils/common.h:23-31); `OpenABEKEY_MA_ENC` is never used. -/
inductive KeyType
  | none
  | sk
  | pk
  | cp
  | kp
  | ma
  | sig
  deriving DecidableEq, Repr

/-- utils/utils.cpp:154-178 `OpenABE_KeyTypeFromAlgorithmID`. -/
def keyTypeOf (alg : UInt8) : KeyType :=
  if alg = 70 ∨ alg = 71 ∨ alg = 72 then .sk
  else if alg = 100 then .pk
  else if alg = 101 ∨ alg = 201 then .cp
  else if alg = 102 ∨ alg = 202 then .kp
  else if alg = 60 then .sig
  else .none

/-- utils/utils.cpp:180-188 `OpenABE_KeyTypeToString`. -/
def keyTypeToString : KeyType → Bytes
  | .sk => b!"SymKey"
  | .pk => b!"PubKey"
  | .cp => b!"CP-ABEKey"
  | .kp => b!"KP-ABEKey"
  | .sig => b!"PKSigKey"
  | _ => b!"Invalid KeyType"

/-- The kind of input a key carries (`OpenABEFunctionInputType`, include/lsss/zfunctioninput.h). -/
inductive InputType
  | invalid
  | policy
  | attrs
  deriving DecidableEq, Repr

/-- utils/utils.cpp:104-120 `getFunctionInputType`. -/
def inputTypeOf (alg : UInt8) : Res InputType := do
  let id ← getSchemeID alg
  if id = 101 ∨ id = 201 then .ok .attrs
  else if id = 102 ∨ id = 202 then .ok .policy
  else .ok .invalid

/-- utils/abecontext.cpp:9-36 `createContextABE`, `createContextABESchemeCPA`: the identifier of the context made, `none`
for a null pointer. -/
def createContext (id : UInt8) : Option UInt8 :=
  if id = 101 ∨ id = 102 then some id else none

/-! ### Reference counts -/

/-- A tree node as an object with reference count: `refCount` (include/lsss/zobject.h:62) and the subnodes. -/
inductive RNode
  | node (ref : UInt32) (kids : List RNode)

namespace RNode

/-- src/lsss/zobject.cpp:82-88 `deRef`: `refCount-- <= 0` on an unsigned counter; whether the object is deleted, and the
counter. -/
def deRef (ref : UInt32) : Bool × UInt32 := (decide (ref ≤ 0), ref - 1)

/-- zpolicy.cpp:383-386: `n` more calls of `deRef`. `some true`: the object was deleted by the last call, `none`: it is
used after it was deleted. -/
def deRefs : Nat → UInt32 → Option Bool
  | 0, _ => some false
  | n + 1, ref =>
    let r := deRef ref
    if r.1 then (if n = 0 then some true else none) else deRefs n r.2

mutual
/-- `delete` of a node: zpolicy.cpp:379-389, the destructor, then the memory is released. The number of nodes released,
`none` if a released node is used. -/
def delete : RNode → Option Nat
  | .node _ kids => (deleteKids kids).map (· + 1)
/-- zpolicy.cpp:381-388, the loop over the subnodes. -/
def deleteKids : List RNode → Option Nat
  | [] => some 0
  | .node ref kids :: rest =>
    match deRefs ref.toNat ref with
    | none => none
    | some true => do
      let a ← delete (.node ref kids)
      let b ← deleteKids rest
      some (a + b)
    | some false => deleteKids rest
end

mutual
/-- The number of nodes. -/
def size : RNode → Nat
  | .node _ kids => sizeKids kids + 1
def sizeKids : List RNode → Nat
  | [] => 0
  | k :: rest => size k + sizeKids rest
end

/-- The nodes of a tree made by the parser or by copying: `ZObject::ZObject` (zobject.cpp:50-53) sets the counter to 1 and
nothing calls `addRef`. -/
def ofTree : TNode → RNode
  | .leaf .. => .node 1 []
  | .gate _ _ _ kids => .node 1 (kids.map ofTree)

end RNode
end Abe
