import Verif.Model.Cpa
import Verif.Model.Sym
/-!
# Public key encryption (src/abe/zcontextpke.cpp:345-630)

`OpenABEContextSchemePKE` turns a key encapsulation mechanism into encryption of strings. The repository has no
compiled subclass of `OpenABEContextPKE` (`OpenABEContextOPDH` is inside `#if 0`, zcontextpke.cpp:61-343), so the
mechanism is a parameter.
-/
set_option autoImplicit false
namespace Abe
variable {G1 G2 GT : Type}

/-- `OpenABEContextPKE` (include/abe/zcontextpke.h:48-70), the abstract class. The context and the ciphertext are passed
by reference and may be changed. A call ends with a code or with the bytes of the symmetric key; a raised
`OpenABE_ERROR` has the same effect in the callers below as a returned code and is not kept apart. -/
structure PkeKem (G1 G2 GT : Type) where
  encryptKEM : Ctx G1 G2 GT → (pkID senderID : Bytes) → (bits : Nat) → Ciphertext G1 G2 GT →
    Res (Except Err Bytes × Ciphertext G1 G2 GT × Ctx G1 G2 GT)
  decryptKEM : Ctx G1 G2 GT → (pkID skID : Bytes) → Ciphertext G1 G2 GT → (bits : Nat) →
    Res (Except Err Bytes × Ciphertext G1 G2 GT × Ctx G1 G2 GT)
  validatePublicKey : Key G1 G2 GT → Bool
  validatePrivateKey : Key G1 G2 GT → Bool

namespace Pke
open Scheme

/-- `DEFAULT_SYM_KEY_BITS` (include/lsss/zconstants.h:52). -/
def symKeyBits : Nat := 256

/-- zcontextpke.cpp:428-462 `loadPublicKey` and 472-505 `loadPrivateKey`, which differ in the check and in the kind
of key stored: the code and the context. `ready` says whether the context has its pairing object, which is dereferenced
without a test (zcontextpke.cpp:448, 489). -/
def loadWith (mk : Mktime) (cd : Codec G1 G2 GT) (check : Key G1 G2 GT → Bool) (kind : KeyKind) (c : Ctx G1 G2 GT)
    (keyID blob rnd : Bytes) : Res (Option Err × Ctx G1 G2 GT) := do
  let res ← caught (do
    let (k, body) ← (Key.parseHeader blob rnd : Res (Key G1 G2 GT × Bytes))
    if k.alg ≠ c.alg then .throw .invalidKeyHeader
    else if c.ready = false then .ub
    else do
      let k1 ← k.loadBody mk cd body
      if check k1 then .ok k1 else .throw .invalidParams)
  match res with
  | .error e => .ok (some e, c)
  | .ok k1 => .ok (none, { c with ks := c.ks.addKey keyID k1 kind })

/-- zcontextpke.cpp:432-462. -/
def loadPublicKey (mk : Mktime) (cd : Codec G1 G2 GT) (K : PkeKem G1 G2 GT) (c : Ctx G1 G2 GT)
    (keyID blob rnd : Bytes) : Res (Option Err × Ctx G1 G2 GT) :=
  loadWith mk cd K.validatePublicKey .pub c keyID blob rnd

/-- zcontextpke.cpp:472-503. -/
def loadPrivateKey (mk : Mktime) (cd : Codec G1 G2 GT) (K : PkeKem G1 G2 GT) (c : Ctx G1 G2 GT)
    (keyID blob rnd : Bytes) : Res (Option Err × Ctx G1 G2 GT) :=
  loadWith mk cd K.validatePrivateKey .sec c keyID blob rnd

/-- zcontextpke.cpp:398-421 `exportKey`, the same code as zcontextabe.cpp:160-181. -/
def exportKey (cd : Codec G1 G2 GT) (c : Ctx G1 G2 GT) (keyID : Bytes) : Res (Except Err Bytes × Ctx G1 G2 GT) :=
  Cpa.exportKey cd c keyID

/-- zcontextpke.cpp:511-514. -/
def deleteKey (c : Ctx G1 G2 GT) (keyID : Bytes) : Option Err × Ctx G1 G2 GT := Cpa.deleteKey c keyID

/-- zcontextpke.cpp:528-572 `encrypt`: code, ciphertext object and context. `iv` are the random bytes drawn by the
cipher. The code returned by `authEnc->encrypt` is ignored (line 559). -/
def encrypt (g : Gcm) (K : PkeKem G1 G2 GT) (c : Ctx G1 G2 GT) (pkID senderpkID plaintext iv : Bytes)
    (ct : Ciphertext G1 G2 GT) : Res (Option Err × Ciphertext G1 G2 GT × Ctx G1 G2 GT) :=
  if plaintext.length = 0 then .ok (some .noPlaintextSpecified, ct, c)
  else
    let pk := c.ks.getPublicKey senderpkID
    match pk.1 with
    | none => .ok (some .missingSenderPublicKey, ct, { c with ks := pk.2 })
    | some spk => do
      let (res, ct1, c1) ← K.encryptKEM { c with ks := pk.2 } pkID spk.uid symKeyBits ct
      match res with
      | .error e => .ok (some e, ct1, c1)
      | .ok key => do
        let a := AuthEnc.setAad { key := key } ct1.header
        let (body, tag) ← a.encrypt g iv plaintext
        let d1 ← Container.setComponent ct1.comps b!"IV" (.bytes iv)
        let d2 ← Container.setComponent d1 b!"CT" (.bytes body)
        let d3 ← Container.setComponent d2 b!"Tag" (.bytes tag)
        .ok (none, { ct1 with comps := d3 }, c1)

/-- zcontextpke.cpp:603-608, `getByteString` followed by `ASSERT_NOTNULL`: the bytes and the container, to which a
missing name has been added. -/
def fetch (d : Container G1 G2 GT) (name : Bytes) : Except Err Bytes × Container G1 G2 GT :=
  let r := Container.getComponent d name
  match r.1 with
  | .ok (.bytes b) => (.ok b, r.2)
  | .ok _ => (.error .invalidInput, r.2)
  | _ => (.error .elementNotFound, r.2)

/-- zcontextpke.cpp:590-630 `decrypt`: code, the plaintext written (`none`: the argument is left as it was), ciphertext
object and context. -/
def decrypt (g : Gcm) (K : PkeKem G1 G2 GT) (c : Ctx G1 G2 GT) (pkID skID : Bytes) (ct : Ciphertext G1 G2 GT) :
    Res (Option Err × Option Bytes × Ciphertext G1 G2 GT × Ctx G1 G2 GT) := do
  let (res, ct1, c1) ← K.decryptKEM c pkID skID ct symKeyBits
  match res with
  | .error e => .ok (some e, none, ct1, c1)
  | .ok key =>
    let (riv, d1) := fetch ct1.comps b!"IV"
    match riv with
    | .error e => .ok (some e, none, { ct1 with comps := d1 }, c1)
    | .ok iv =>
      let (rct, d2) := fetch d1 b!"CT"
      match rct with
      | .error e => .ok (some e, none, { ct1 with comps := d2 }, c1)
      | .ok body =>
        let (rtag, d3) := fetch d2 b!"Tag"
        match rtag with
        | .error e => .ok (some e, none, { ct1 with comps := d3 }, c1)
        | .ok tag => do
          let a := AuthEnc.setAad { key := key } ct1.header
          let r ← caught (a.decrypt g iv body tag)
          match r with
          | .error e => .ok (some e, none, { ct1 with comps := d3 }, c1)
          | .ok none => .ok (some .decryptionFailed, none, { ct1 with comps := d3 }, c1)
          | .ok (some p) => .ok (none, some p, { ct1 with comps := d3 }, c1)

end Pke
end Abe
