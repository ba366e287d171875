import Verif.Model.Scheme
/-!
# The CPA wrapper: moving keys in and out (src/abe/zcontextabe.cpp:84-285)

`encrypt` and `decrypt` are in Verif/Model/Scheme.lean; `generateParams` and `keygen` only forward to
`Scheme.generateParams` and `Scheme.generateKey`. A context is the keystore of its KEM (`Ctx`).
-/
set_option autoImplicit false
namespace Abe
namespace Cpa
open Scheme
variable {G1 G2 GT : Type}

/-- `OpenABE_SCHEME_CP_WATERS`, `OpenABE_SCHEME_KP_GPSW` (utils/common.h:16-17). -/
def schemeType : Scheme → UInt8
  | .cp => 101
  | .kp => 102

/-- zcontextabe.cpp:90-100, the constructor: only the two schemes are accepted. The argument is the scheme type of the
KEM, `none` for a null pointer. -/
def construct : Option UInt8 → Res Unit
  | none => .throw .invalidInput
  | some t => if t = 102 ∨ t = 101 then .ok () else .throw .invalidInput

/-- zcontextabe.cpp:141-150 `getHashKey`: the pointer (`none`: null) and the context afterwards; nothing is caught. The
state after an exception is not modelled. -/
def getHashKey (c : Ctx G1 G2 GT) (mpkID : Bytes) : Res (Option Bytes × Ctx G1 G2 GT) :=
  let pk := c.ks.getPublicKey mpkID
  match pk.1 with
  | none => .throw .invalidParams
  | some mpk => do
    let k ← getBytes mpk.comps b!"k"
    .ok (k, { c with ks := pk.2 })

/-- zcontextabe.cpp:160-181 `exportKey`, zcontextske.cpp:157-170 `OpenABE_exportKey`, zkeystore.cpp:264-273
`exportKeyToBytes`: the code or the bytes, and the context afterwards. -/
def exportKey (cd : Codec G1 G2 GT) (c : Ctx G1 G2 GT) (keyID : Bytes) : Res (Except Err Bytes × Ctx G1 G2 GT) :=
  let r := c.ks.getKey keyID
  match r.1 with
  | none => .ok (.error .invalidInput, { c with ks := r.2 })
  | some k => do
    let res ← caught (k.exportBytes cd)
    match res with
    | .error _ => .ok (.error .invalidInput, { c with ks := r.2 })
    | .ok b => .ok (.ok b, { c with ks := r.2 })

/-- zcontextabe.cpp:193-218 `loadKey`: the code (`none`: no error) and the context afterwards. Nothing is caught;
`parseKeyHeader` raises where the code afterwards tests for null. `rnd` are the random bytes drawn for a uid of the wrong
length. -/
def loadKey (mk : Mktime) (cd : Codec G1 G2 GT) (c : Ctx G1 G2 GT) (id blob rnd : Bytes) (kind : KeyKind) :
    Res (Option Err × Ctx G1 G2 GT) := do
  let (k, body) ← (Key.parseHeader blob rnd : Res (Key G1 G2 GT × Bytes))
  if k.alg ≠ c.alg then .ok (some .invalidKeyHeader, { c with ready := true })
  else do
    let k1 ← k.loadBody mk cd body
    .ok (none, { c with ready := true, ks := c.ks.addKey id k1 kind })

/-- zcontextabe.cpp:228-231. -/
def loadMasterPublicParams (mk : Mktime) (cd : Codec G1 G2 GT) (c : Ctx G1 G2 GT) (id blob rnd : Bytes) :
    Res (Option Err × Ctx G1 G2 GT) := loadKey mk cd c id blob rnd .pub
/-- zcontextabe.cpp:241-245. -/
def loadMasterSecretParams (mk : Mktime) (cd : Codec G1 G2 GT) (c : Ctx G1 G2 GT) (id blob rnd : Bytes) :
    Res (Option Err × Ctx G1 G2 GT) := loadKey mk cd c id blob rnd .sec
/-- zcontextabe.cpp:256-260. -/
def loadUserSecretParams (mk : Mktime) (cd : Codec G1 G2 GT) (c : Ctx G1 G2 GT) (id blob rnd : Bytes) :
    Res (Option Err × Ctx G1 G2 GT) := loadKey mk cd c id blob rnd .sec

/-- zcontextabe.cpp:269-272. -/
def deleteKey (c : Ctx G1 G2 GT) (keyID : Bytes) : Option Err × Ctx G1 G2 GT :=
  let r := c.ks.deleteKey keyID
  (r.1, { c with ks := r.2 })

/-- zcontextabe.cpp:274-276. -/
def checkSecretKey (c : Ctx G1 G2 GT) (keyID : Bytes) : Bool := c.ks.checkSecretKey keyID

end Cpa
end Abe
