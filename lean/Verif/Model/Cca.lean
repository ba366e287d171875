import Verif.Model.Utils
import Verif.Model.Sym
/-!
# The transform against chosen ciphertexts (disabled)

src/abe/zcontextcca.cpp:43-844 stands between `#if 0` and `#endif`: it is not compiled. It is modelled as it
stands, since enabling it is what the declarations around it (include/abe/zabe.h:30-31) prepare for.

* The object that wraps the scheme is the modelled CPA wrapper (`Verif.Model.Scheme`), with the same scheme.
* Random bytes `r`, `K` and the randomness of both encryptions are arguments. The two hashes `u` and `nonceU`
  (234-240, 299-302) are computed and not used by anything; they are left out, with the text they hash (which makes
  a null root of a policy harmless here).
* `left` is what a failed second encryption leaves in the fresh ciphertext: its result is not looked at (306).
* Failed lookups while decrypting, which add null objects to the ciphertext, are not followed: they end in an error.
-/
set_option autoImplicit false
namespace Abe
namespace Cca
variable {G1 G2 GT : Type} {q : Nat} [Fact q.Prime]
variable [AddCommGroup G1] [Module (ZMod q) G1] [AddCommGroup G2] [Module (ZMod q) G2] [AddCommGroup GT]
  [Module (ZMod q) GT]

/-- zcontextcca.cpp:217-255 (disabled) `OpenABEContextGenericCCA::encryptKEM`: session key and ciphertext. -/
def encryptKEM (env : Env G1 G2 GT) (sch : Scheme) (c : Ctx G1 G2 GT) (mpkID : Bytes)
    (input : FInput) (r K : Bytes) (er : Scheme.Rand q) (ct : Ciphertext G1 G2 GT) :
    Res (Except Err (Bytes × Ciphertext G1 G2 GT) × Ctx G1 G2 GT) :=
  match input with
  | .null => .ok (.error .invalidInput, c)
  | input => do
    let (res, c1) ← Scheme.encrypt env sch c mpkID input (BS.plus r K) er ct
    match res with
    | .error _ => .ok (.error .encryptionError, c1)
    | .ok ct1 => do
      let k ← Scheme.caught (({} : SymKey).setSymmetricKey K)
      match k with
      | .error e => .ok (.error e, c1)
      | .ok k => .ok (.ok (k.data, ct1), c1)

/-- zcontextcca.cpp:269-321 (disabled) `OpenABEContextGenericCCA::decryptKEM`: session key. The second encryption
is compared with the first by `operator==` of the containers. -/
def decryptKEM [DecidableEq G1] [DecidableEq G2] [DecidableEq GT] (env : Env G1 G2 GT) (sch : Scheme)
    (c : Ctx G1 G2 GT) (mpkID keyID : Bytes) (ct : Ciphertext G1 G2 GT) (len : Nat) (er : Scheme.Rand q)
    (fresh left : Ciphertext G1 G2 GT) : Res (Except Err Bytes × Ctx G1 G2 GT) := do
  let (code, M, c1) ← Scheme.decrypt q env sch c keyID ct
  match code with
  | some _ => .ok (.error .decryptionFailed, c1)
  | none => do
    let K := BS.getSubset M len len
    let input ← Scheme.caught (Ciphertext.functionInput env.mktime ct)
    match input with
    | .error e => .ok (.error e, c1)
    | .ok .null => .ok (.error .invalidInput, c1)
    | .ok input => do
      let (res, c2) ← Scheme.encrypt env sch c1 mpkID input M er fresh
      let same ← Scheme.caught (Container.eq ct.comps (match res with | .ok ct2 => ct2.comps | .error _ => left.comps))
      match same with
      | .error e => .ok (.error e, c2)
      | .ok false => .ok (.error .decryptionFailed, c2)
      | .ok true => do
        let k ← Scheme.caught (({} : SymKey).setSymmetricKey K)
        match k, res with
        | .error e, _ => .ok (.error e, c2)
        | .ok _, .error e => .ok (.error e, c2)
        | .ok k, .ok _ => .ok (.ok k.data, c2)

/-- zcontextcca.cpp:493-532 (disabled) `OpenABEContextSchemeCCA::encrypt`: both ciphertexts; `iv` is random. 71 is
`OpenABE_SCHEME_AES_GCM` (utils/common.h:13). -/
def encrypt (g : Gcm) (env : Env G1 G2 GT) (sch : Scheme) (c : Ctx G1 G2 GT) (mpkID : Bytes)
    (input : FInput) (plaintext : Bytes) (r K iv : Bytes) (er : Scheme.Rand q)
    (ct1 ct2 : Ciphertext G1 G2 GT) :
    Res (Except Err (Ciphertext G1 G2 GT × Ciphertext G1 G2 GT) × Ctx G1 G2 GT) :=
  if plaintext.length = 0 then .ok (.error .noPlaintextSpecified, c)
  else do
    let (res, c1) ← encryptKEM env sch c mpkID input r K er ct1
    match res with
    | .error e => .ok (.error e, c1)
    | .ok (k, ct1) => do
      let out ← Scheme.caught (do
        let (body, tag) ← (({ key := k } : AuthEnc).setAad ct1.header).encrypt g iv plaintext
        let d ← Container.setComponent ct2.comps b!"IV" (.bytes iv)
        let d ← Container.setComponent d b!"CT" (.bytes body)
        let d ← Container.setComponent d b!"Tag" (.bytes tag)
        .ok (ct1, ({ ct2 with comps := d } : Ciphertext G1 G2 GT).setHeader 71 ct1.uid))
      .ok (out, c1)

/-- zcontextcca.cpp:546-588 (disabled) `OpenABEContextSchemeCCA::decrypt`: the plaintext. -/
def decrypt [DecidableEq G1] [DecidableEq G2] [DecidableEq GT] (g : Gcm) (env : Env G1 G2 GT) (sch : Scheme)
    (c : Ctx G1 G2 GT) (mpkID keyID : Bytes) (ct1 ct2 : Ciphertext G1 G2 GT) (er : Scheme.Rand q)
    (fresh left : Ciphertext G1 G2 GT) : Res (Except Err Bytes × Ctx G1 G2 GT) := do
  let parts ← Scheme.caught (do
    let iv ← Scheme.getBytes ct2.comps b!"IV"
    let iv ← Scheme.notNull iv
    let ct ← Scheme.getBytes ct2.comps b!"CT"
    let ct ← Scheme.notNull ct
    let tag ← Scheme.getBytes ct2.comps b!"Tag"
    let tag ← Scheme.notNull tag
    .ok (iv, ct, tag))
  match parts with
  | .error e => .ok (.error e, c)
  | .ok (iv, body, tag) => do
    let (res, c1) ← decryptKEM env sch c mpkID keyID ct1 Scheme.symKeyBytes er fresh left
    match res with
    | .error e => .ok (.error e, c1)
    | .ok k => do
      let out ← Scheme.caught (do
        let p ← (({ key := k } : AuthEnc).setAad ct1.header).decrypt g iv body tag
        match p with
        | none => .throw .decryptionFailed
        | some p => .ok p)
      .ok (out, c1)

end Cca
end Abe
