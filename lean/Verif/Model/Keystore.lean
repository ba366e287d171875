import Verif.Base
/-!
# The in-memory keystore (src/abe/zkeystore.cpp)

Keys are values of a type `K`; a null `shared_ptr` is `none`. `zeroize` of a key does nothing
(src/abe/zcontainer.cpp:126-128 returns "not implemented").
-/
set_option autoImplicit false
namespace Abe

/-- `OpenABEKeystore` (include/abe/zkeystore.h:49-51). -/
structure KeyStore (K : Type) where
  pub : SMap (Option K) := []
  sec : SMap (Option K) := []

/-- `zKeyType` (include/abe/zkeystore.h:45-48) has the first two; `other` stands for any further value an
`enum` argument may carry, which `addKey` ignores. -/
inductive KeyKind
  | pub
  | sec
  | other
  deriving DecidableEq, Repr

namespace KeyStore
variable {K : Type}

/-- `m[k]` on a map of pointers, read: the value, and the map with a null entry added if there was none. -/
def touch (m : SMap (Option K)) (k : Bytes) : Option K × SMap (Option K) :=
  match SMap.find k m with
  | some v => (v, m)
  | none => (none, SMap.insert k none m)

/-- zkeystore.cpp:98-110 `addKey`. -/
def addKey (ks : KeyStore K) (name : Bytes) (k : K) : KeyKind → KeyStore K
  | .pub => { ks with pub := SMap.insert name (some k) ks.pub }
  | .sec => { ks with sec := SMap.insert name (some k) ks.sec }
  | .other => ks

/-- zkeystore.cpp:160-170 `getPublicKey`. -/
def getPublicKey (ks : KeyStore K) (id : Bytes) : Option K × KeyStore K :=
  let r := touch ks.pub id
  (r.1, { ks with pub := r.2 })

/-- zkeystore.cpp:179-190 `getSecretKey`. -/
def getSecretKey (ks : KeyStore K) (id : Bytes) : Option K × KeyStore K :=
  let r := touch ks.sec id
  (r.1, { ks with sec := r.2 })

/-- zkeystore.cpp:120-136 `getKey`: the secret keys are only looked at when there is no public key. -/
def getKey (ks : KeyStore K) (id : Bytes) : Option K × KeyStore K :=
  let r := getPublicKey ks id
  match r.1 with
  | some k => (some k, r.2)
  | none => getSecretKey r.2 id

/-- zkeystore.cpp:145-150 `checkSecretKey`: `count`, so a null entry counts. -/
def checkSecretKey (ks : KeyStore K) (id : Bytes) : Bool := (SMap.find id ks.sec).isSome

/-- zkeystore.cpp:221-249 `deleteKey`: error code (`none`: `OpenABE_NOERROR`) and the new store. -/
def deleteKey (ks : KeyStore K) (id : Bytes) : Option Err × KeyStore K :=
  let r := getKey ks id
  match r.1 with
  | some _ =>
    let foundPub := (SMap.find id r.2.pub).isSome
    let foundSec := (SMap.find id r.2.sec).isSome
    let ks' := { pub := SMap.erase id r.2.pub, sec := SMap.erase id r.2.sec }
    if !foundPub && !foundSec then (some .invalidKey, ks') else (none, ks')
  | none => (none, r.2)

/-- zkeystore.cpp:258-261 `validateNewParamsID`. -/
def validateNewParamsID (ks : KeyStore K) (id : Bytes) : Bool × KeyStore K :=
  let r := getKey ks id
  (r.1.isNone, r.2)

end KeyStore
end Abe
