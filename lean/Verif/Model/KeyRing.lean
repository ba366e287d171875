import Verif.Model.Sym
import Verif.Model.Cpa
/-!
# Symmetric keys in a keystore (src/abe/zcontextske.cpp:47-170)

The free functions take a keystore by reference, which holds `shared_ptr<OpenABEKey>`: keys of the schemes and
symmetric keys alike.
-/
set_option autoImplicit false
namespace Abe
namespace KeyRing
variable {G1 G2 GT : Type}

/-- What a `shared_ptr<OpenABEKey>` of the keystore points to: an `OpenABEKey` (include/abe/zkey.h:46-85) or an
`OpenABESymKey` (include/abe/zsymkey.h:60-85), which is derived from it. -/
inductive Stored (G1 G2 GT : Type)
  | abe (k : Key G1 G2 GT)
  | sym (k : SymKey)

/-- A keystore with keys of both kinds (include/abe/zkeystore.h:49-51). -/
abbrev Ring (G1 G2 GT : Type) := KeyStore (Stored G1 G2 GT)

/-- zcontextske.cpp:58-71 `OpenABE_storeSymmetricKey`: code and keystore; a null pointer is refused
(include/lsss/zconstants.h:99). -/
def store (ks : Ring G1 G2 GT) (id : Bytes) : Option SymKey → Option Err × Ring G1 G2 GT
  | none => (some .invalidInput, ks)
  | some k => (none, ks.addKey id (.sym k) .sec)

/-- zcontextske.cpp:81-100 `OpenABE_loadSymmetricKey`: the code that `loadKeyFromBytes` returns is not looked at,
library errors that it raises are caught. -/
def load (ks : Ring G1 G2 GT) (id blob rnd : Bytes) : Res (Option Err × Ring G1 G2 GT) :=
  match ({} : SymKey).load blob rnd with
  | .ok (_, k) => .ok (none, ks.addKey id (.sym k) .sec)
  | .throw .outOfRange => .throw .outOfRange
  | .throw e => .ok (some e, ks)
  | .ub => .ub
  | .abort => .abort

/-- zcontextske.cpp:108-125 `OpenABE_getSymmetricKey`: `static_pointer_cast` to `OpenABESymKey` of a pointer to any
other key is undefined. -/
def get (ks : Ring G1 G2 GT) (id : Bytes) : Res (Option SymKey × Ring G1 G2 GT) :=
  let r := ks.getSecretKey id
  match r.1 with
  | none => .ok (none, r.2)
  | some (.sym k) => .ok (some k, r.2)
  | some (.abe _) => .ub

/-- zcontextske.cpp:134-147 `OpenABE_deleteSymmetricKey`, for a pointer that is not null. -/
def delete (ks : Ring G1 G2 GT) (id : Bytes) : Option Err × Ring G1 G2 GT :=
  let r := ks.deleteKey id
  (if r.1.isSome then some .invalidInput else none, r.2)

/-- The call of the virtual function `exportKeyToBytes` (include/abe/zkey.h:79; the function of
include/abe/zsymkey.h:82 is another one, as it is not `const`): zkey.cpp:109-126 for both kinds. -/
def bytesOf (cd : Codec G1 G2 GT) : Stored G1 G2 GT → Res Bytes
  | .abe k => k.exportBytes cd
  | .sym k => .ok k.exportBase

/-- zcontextske.cpp:157-170 `OpenABE_exportKey` over zkeystore.cpp:264-273: a code or the bytes, and the keystore. -/
def exportKey (cd : Codec G1 G2 GT) (ks : Ring G1 G2 GT) (id : Bytes) : Res (Except Err Bytes × Ring G1 G2 GT) :=
  let r := ks.getKey id
  match r.1 with
  | none => .ok (.error .invalidKey, r.2)
  | some k => do
    let res ← Scheme.caught (bytesOf cd k)
    .ok (res, r.2)

/-- A call on the keystore: the functions above, and the functions of the keystore by which contexts add and remove
keys of schemes (zkeystore.cpp:98-110, 221-249). -/
inductive Call (G1 G2 GT : Type)
  | store (id : Bytes) (k : Option SymKey)
  | load (id blob rnd : Bytes)
  | get (id : Bytes)
  | delete (id : Bytes)
  | exportKey (id : Bytes)
  | add (id : Bytes) (k : Key G1 G2 GT) (kind : KeyKind)

/-- The keystore after a call. -/
def call (cd : Codec G1 G2 GT) (ks : Ring G1 G2 GT) : Call G1 G2 GT → Res (Ring G1 G2 GT)
  | .store id k => .ok (store ks id k).2
  | .load id blob rnd => do .ok (← load ks id blob rnd).2
  | .get id => do .ok (← get ks id).2
  | .delete id => .ok (delete ks id).2
  | .exportKey id => do .ok (← exportKey cd ks id).2
  | .add id k kind => .ok (ks.addKey id (.abe k) kind)

/-- The keystore after a history of calls. -/
def calls (cd : Codec G1 G2 GT) (ks : Ring G1 G2 GT) : List (Call G1 G2 GT) → Res (Ring G1 G2 GT)
  | [] => .ok ks
  | c :: cs => do calls cd (← call cd ks c) cs

end KeyRing
end Abe
