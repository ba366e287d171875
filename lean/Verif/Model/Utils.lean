import Verif.Model.Cpa
import Verif.Model.KeyMgr
import Verif.Model.Library
/-!
# Utilities around the schemes

utils/utils.cpp:79-102, utils/abecontext.cpp, src/abe/zerror.cpp, src/lsss/zfunctioninput.cpp:65-78 and the stub
`OpenABEContainer::zeroize`.
-/
set_option autoImplicit false
namespace Abe
variable {G1 G2 GT : Type}

/-! ### Error codes -/

/-- include/abe/zerror.h:43-105, the numbers of the codes; the two exceptions of the standard library have none. -/
def Err.code : Err → Option Nat
  | .outOfRange => none
  | .runtimeError => none
  | .invalidContext => some 2
  | .invalidCiphertext => some 3
  | .invalidGroupParams => some 4
  | .invalidParams => some 5
  | .invalidKey => some 6
  | .outOfMemory => some 7
  | .invalidInput => some 8
  | .encryptionError => some 9
  | .unknownScheme => some 10
  | .libraryNotInitialized => some 11
  | .noSecretParams => some 12
  | .noPublicParams => some 13
  | .notImplemented => some 14
  | .bufferTooSmall => some 15
  | .wrongGroup => some 16
  | .invalidParamsId => some 17
  | .elementNotFound => some 18
  | .secretSharingFailed => some 19
  | .invalidPolicy => some 20
  | .invalidRng => some 21
  | .signatureFailed => some 22
  | .wrongUserParam => some 23
  | .invalidLength => some 24
  | .serializationFailed => some 25
  | .invalidLibversion => some 26
  | .randInsufficient => some 27
  | .unexpectedExtraBytes => some 28
  | .inUseAlready => some 29
  | .invalidKeyHeader => some 30
  | .invalidCiphertextHeader => some 31
  | .decryptionFailed => some 32
  | .verificationFailed => some 33
  | .divideByZero => some 34
  | .ctrDrbNotInitialized => some 35
  | .elementNotInitialized => some 36
  | .deserializationFailed => some 37
  | .invalidCurveId => some 38
  | .invalidSchemeId => some 39
  | .invalidKeyBody => some 40
  | .invalidCiphertextBody => some 41
  | .syntaxErrorInParser => some 42
  | .classNotInitialized => some 43
  | .invalidPackType => some 44
  | .invalidAttributeStructure => some 45
  | .indexOutOfBounds => some 46
  | .missingSenderPublicKey => some 47
  | .missingReceiverPrivateKey => some 48
  | .missingReceiverPublicKey => some 49
  | .missingAuthorityIdInAttr => some 50
  | .invalidAttributeList => some 51
  | .invalidRangeNumbers => some 52
  | .invalidMismatchBits => some 53
  | .invalidPrefixSpecified => some 54
  | .invalidDateSpecified => some 55
  | .invalidDateBeforeEpoch => some 56
  | .orderNotSpecified => some 57
  | .invalidPolicyTree => some 58
  | .keygenFailed => some 59
  | .noPlaintextSpecified => some 60
  | .invalidTagLength => some 61
  | .unknown => some 99
  | .invalidInputType => some 100

/-- zerror.cpp:53-234, the cases of the switch in their order. -/
def errorTexts : List (Nat × Bytes) :=
  [(0, b!"No error"),
   (2, b!"Invalid encryption context"),
   (3, b!"Invalid ciphertext"),
   (4, b!"Invalid group parameters"),
   (5, b!"Invalid global parameters"),
   (6, b!"Invalid key or parameters"),
   (7, b!"Out of memory"),
   (8, b!"Invalid function input"),
   (9, b!"Error occurred during encryption"),
   (10, b!"Unknown scheme"),
   (11, b!"Library not initialized or shut down due to critical error"),
   (12, b!"Secret parameters are not available"),
   (13, b!"Public parameters (MPK) are not available"),
   (14, b!"Functionality has not been implemented"),
   (15, b!"Buffer is too small for the requested operation"),
   (17, b!"Invalid group parameters ID"),
   (16, b!"Input value is in the wrong group"),
   (18, b!"Element not found in container"),
   (19, b!"Unable to complete secret sharing or recovery"),
   (20, b!"Invalid policy"),
   (23, b!"Provided wrong user parameters"),
   (24, b!"Specified length is invalid"),
   (61, b!"Specified an invalid authentication tag length"),
   (25, b!"Error occurred during serialization"),
   (26, b!"Input structure does not match library version"),
   (27, b!"Insufficient randomness returned"),
   (28, b!"Unexpected extra bytes were added beyond the size of the buffer"),
   (29, b!"Specified identifier is currently in use already"),
   (30, b!"Error occurred while parsing the key header. Perhaps, key type mismatch?"),
   (31, b!"Error occurred while parsing the ciphertext header"),
   (32, b!"Error occurred during decryption"),
   (33, b!"Could not perform verification due to invalid inputs or verification failed"),
   (34, b!"Divide by zero error occurred"),
   (57, b!"The order of the group was not specified"),
   (36, b!"The group or integer element was not initialized"),
   (37, b!"Error occurred during deserialization"),
   (38, b!"Invalid curve identifier"),
   (39, b!"Invalid scheme identifier"),
   (40, b!"The body of the key structure is malformed"),
   (41, b!"The body of the ciphertext is malformed"),
   (42, b!"A syntax error occurred during parsing of the input policy"),
   (35, b!"The CTR DRBG context was not initialized. Failed to call 'setSeed'"),
   (43, b!"The object was not initialized properly"),
   (44, b!"The pack type specified is invalid"),
   (45, b!"Invalid attribute structure specified"),
   (46, b!"Index is out of bounds"),
   (47, b!"Missing the sender's public key"),
   (48, b!"Missing the receiver's private key"),
   (49, b!"Missing the receiver's public key"),
   (50, b!"Missing authority ID in specified attribute"),
   (51, b!"Invalid attribute list specified"),
   (52, b!"Invalid range numbers specified"),
   (53, b!"Specified a mismatch of integer bits"),
   (54, b!"Specified a reserved/system prefix"),
   (55, b!"Invalid date specified as attribute"),
   (56, b!"Date specified is before unix epoch: January 1, 1970"),
   (22, b!"Error occurred during signing"),
   (59, b!"Error occurred during key generation"),
   (60, b!"Did not specify plaintext to encrypt or sign"),
   (99, b!"Unknown error")]

/-- zerror.cpp:52-240 `OpenABE_errorToString`. -/
def errorToString (code : Nat) : Bytes := (errorTexts.lookup code).getD b!"Unrecognized error code"

/-! ### Contexts -/

/-- The context of a new `OpenABEContextCPWaters` (zcontextcpwaters.cpp:57-61) or `OpenABEContextKPGPSW`
(zcontextkpgpsw.cpp:58-62): its algorithm id, no pairing object, no keys. -/
def newCtx (sch : Scheme) : Ctx G1 G2 GT := { alg := Cpa.schemeType sch }

/-- utils/abecontext.cpp:9-19 `createContextABE`: `none` is the null pointer. -/
def createContextABE (id : UInt8) : Option (Scheme × Ctx G1 G2 GT) :=
  if id = 101 then some (.cp, newCtx .cp)
  else if id = 102 then some (.kp, newCtx .kp)
  else none

/-- utils/abecontext.cpp:27-36 `createContextABESchemeCPA` over zcontextabe.cpp:90-100. -/
def createContextCPA (id : UInt8) : Res (Option (Scheme × Ctx G1 G2 GT)) :=
  match createContextABE id with
  | none => .ok none
  | some (sch, c) => do
    Cpa.construct (some c.alg)
    .ok (some (sch, c))

/-! ### Function inputs -/

/-- utils/utils.cpp:79-102 `getFunctionInput` of a ciphertext. The result may be null: other schemes, or a text that
the parser rejects. -/
def Ciphertext.functionInput (mk : Mktime) (ct : Ciphertext G1 G2 GT) : Res FInput :=
  if ct.alg = 101 ∨ ct.alg = 201 then do
    let o ← Scheme.getBytes ct.comps b!"policy"
    let s ← Scheme.notNull o
    let r ← createPolicyTree mk s
    .ok (match r with | some p => .policy p | none => .null)
  else if ct.alg = 102 ∨ ct.alg = 202 then do
    let o ← (Container.getComponent ct.comps b!"attributes").1
    let l ← Scheme.castAttrs o
    let r ← createAttributeList mk l.compact
    .ok (match r with | some a => .attrs a | none => .null)
  else .ok .null

/-- zfunctioninput.cpp:65-78 `copyFunctionInput`: `OpenABEPolicy` has no `clone` of its own (include/lsss/zpolicy.h:143),
so it inherits the one of `ZObject`, which returns a null pointer (include/lsss/zobject.h:57). -/
def FInput.copy : FInput → FInput
  | .policy _ => .null
  | .attrs l => .attrs l
  | .null => .null

/-! ### Erasing -/

/-- zcontainer.cpp:126-128 `zeroize`: the code, and the components afterwards. -/
def Container.zeroize (c : Container G1 G2 GT) : Option Err × Container G1 G2 GT := (some .notImplemented, c)

end Abe
