import Verif.Model.Scheme
/-!
# The key manager (src/abe/zkeymgr.cpp, utils/utils.cpp)

Every command returns its outcome and the state afterwards, also when it raises. One command at a
time; threads and the mutex are in Model/KeyMgrThreads. `uint64_t` times are natural numbers.
-/
set_option autoImplicit false
namespace Abe
variable {G1 G2 GT : Type}

/-- `std::sort` of the satisfying keys with `key_ref_compare` (zkeymgr.cpp:237-241, unstable): some function that
returns a permutation ordered by the second component. -/
structure RefSort where
  fn : List (Bytes × Int) → List (Bytes × Int)
  perm : ∀ l, (fn l).Perm l
  sorted : ∀ l, (fn l).Pairwise (fun a b => a.2 ≤ b.2)

/-- `_OpenABEMetadata` (include/abe/zkeymgr.h:47-57). The input is never null in a stored object; its type is
`inputType`. `isExpired` is never read. -/
structure Meta where
  userId : Bytes
  blob : Bytes
  expires : Nat
  schemeID : UInt8
  input : FInput
  cached : Bool

/-- `OpenABEKeyQuery` (include/abe/zkeymgr.h:62-68); `frequentlyAccessed` is never read. -/
structure Query where
  efficient : Bool
  now : Nat
  userId : Bytes

/-- `OpenABEKeystoreManager` (include/abe/zkeymgr.h:74-112). `keyLoaded_` is never used. The base class keystore
never receives a key: the inheritance is private and no command adds one. -/
structure KeyMgr (G1 G2 GT : Type) where
  keys : SMap Meta := []
  counter : SMap Nat := []
  pass : SMap Bytes := []
  active : SMap Bytes := []
  base : KeyStore (Key G1 G2 GT) := {}

/-- What the key manager takes from outside. -/
structure KmEnv (G1 G2 GT : Type) where
  mktime : Mktime
  codec : Codec G1 G2 GT
  sort : StdSort
  refs : RefSort
  /-- assertions are compiled out -/
  ndebug : Bool := false

/-- `toCompactString` through a pointer. -/
def FInput.compact : FInput → Res Bytes
  | .null => .ub
  | .attrs l => .ok l.compact
  | .policy p => .ok p.compact

/-- `getFunctionType() == getFunctionType()` (include/lsss/zfunctioninput.h). -/
def FInput.sameType : FInput → FInput → Bool
  | .attrs _, .attrs _ => true
  | .policy _, .policy _ => true
  | .null, .null => true
  | _, _ => false

/-- `inputType == target_type` in `filterKeys`: the stored input is of the kind that can decrypt. -/
def FInput.opposite : FInput → FInput → Bool
  | .attrs _, .policy _ => true
  | .policy _, .attrs _ => true
  | _, _ => false

namespace Key

/-- utils/utils.cpp:122-148 `getFunctionInput` of a key. The result may be null: other schemes, or a text that the
parser rejects. -/
def functionInput (mk : Mktime) (k : Key G1 G2 GT) : Res FInput :=
  match getSchemeID k.alg with
  | .ok id =>
    if id = 101 ∨ id = 201 then do
      let o ← (Container.getComponent k.comps b!"input").1
      let l ← Scheme.castAttrs o
      let r ← createAttributeList mk l.compact
      .ok (match r with | some a => .attrs a | none => .null)
    else if id = 102 ∨ id = 202 then do
      let o ← Scheme.getBytes k.comps b!"input"
      let s ← Scheme.notNull o
      let r ← createPolicyTree mk s
      .ok (match r with | some p => .policy p | none => .null)
    else .ok .null
  | .throw e => .throw e
  | .ub => .ub
  | .abort => .abort

end Key

namespace KeyMgr

/-- zkeymgr.cpp:106-114: is there a key of this user with the same input? -/
def findDup (userId new : Bytes) (inp : FInput) : SMap Meta → Res Bool
  | [] => .ok false
  | (_, m) :: rest => do
    let s ← m.input.compact
    if s = new ∧ FInput.sameType inp m.input = true ∧ userId = m.userId then .ok true
    else findDup userId new inp rest

/-- zkeymgr.cpp:87-103: from the blob to the scheme and the input of the key (`none`: scheme "none"). -/
def parseBlob (env : KmEnv G1 G2 GT) (blob rnd : Bytes) : Res (Option (UInt8 × FInput)) := do
  let (key, body) ← (Key.parseHeader blob rnd : Res (Key G1 G2 GT × Bytes))
  let sid ← getSchemeID key.alg
  if sid = 0 then .ok none
  else do
    let key ← Key.loadBody env.mktime env.codec key body
    let inp ← key.functionInput env.mktime
    .ok (some (sid, inp))

/-- zkeymgr.cpp:73-133 `storeWithKeyIDCommand`: an entry of the same id is erased before anything is checked. `rnd` is the
randomness of the key constructor. -/
def store (env : KmEnv G1 G2 GT) (km : KeyMgr G1 G2 GT) (userId keyID blob : Bytes) (expires : Nat) (cache : Bool)
    (rnd : Bytes) : Res Bool × KeyMgr G1 G2 GT :=
  if userId = [] ∧ env.ndebug = false then (.abort, km)
  else
    let km1 := { km with keys := SMap.erase keyID km.keys }
    match parseBlob env blob rnd with
    | .ok none => (.ok false, km1)
    | .ok (some (sid, inp)) =>
      match inp.compact >>= fun new => findDup userId new inp km1.keys with
      | .ok true => (.ok false, km1)
      | .ok false =>
        (.ok true, { km1 with keys := SMap.insert keyID ⟨userId, blob, expires, sid, inp, cache⟩ km1.keys })
      | .throw e => (.throw e, km1)
      | .ub => (.ub, km1)
      | .abort => (.abort, km1)
    | .throw e => (.throw e, km1)
    | .ub => (.ub, km1)
    | .abort => (.abort, km1)

/-- `MAX_KEYS_PER_USER` (include/abe/zkeymgr.h:59). -/
def maxKeys : Nat := 20

/-- `keyCounter_[userId]` (0 when there is no entry). -/
def count (km : KeyMgr G1 G2 GT) (userId : Bytes) : Nat := (SMap.find userId km.counter).getD 0

/-- zkeymgr.cpp:135-155 `storeWithKeyPrefixCommand`: the id, empty when nothing was stored. -/
def storePrefix (env : KmEnv G1 G2 GT) (km : KeyMgr G1 G2 GT) (userId pre blob : Bytes) (expires : Nat) (cache : Bool)
    (rnd : Bytes) : Res Bytes × KeyMgr G1 G2 GT :=
  let km0 := if (SMap.find userId km.counter).isSome then km else { km with counter := SMap.insert userId 0 km.counter }
  let keyID := pre ++ natDec (count km0 userId)
  let r := store env km0 userId keyID blob expires cache rnd
  match r.1 with
  | .ok true => (.ok keyID, { r.2 with counter := SMap.insert userId ((count r.2 userId + 1) % maxKeys) r.2.counter })
  | .ok false => (.ok [], r.2)
  | .throw e => (.throw e, r.2)
  | .ub => (.ub, r.2)
  | .abort => (.abort, r.2)

/-- zkeymgr.cpp:157-159 `getUserKeyCount`. -/
def userKeyCount (km : KeyMgr G1 G2 GT) (userId : Bytes) : Nat × KeyMgr G1 G2 GT :=
  (count km userId, if (SMap.find userId km.counter).isSome then km
    else { km with counter := SMap.insert userId 0 km.counter })

/-- zkeymgr.cpp:63-66 `setPassphrase`. -/
def setPassphrase (km : KeyMgr G1 G2 GT) (programId userId passphrase : Bytes) : KeyMgr G1 G2 GT :=
  { km with pass := SMap.insert userId passphrase km.pass, active := SMap.insert userId programId km.active }

/-- zkeymgr.cpp:161-175 `getKeyCommand`: the text of the input and the key bytes. -/
def getKey (km : KeyMgr G1 G2 GT) (userId keyID : Bytes) : Res (Bytes × Bytes) :=
  match SMap.find keyID km.keys with
  | some m => if m.userId = userId then do
      let s ← m.input.compact
      .ok (s, m.blob)
    else .ok ([], [])
  | none => .ok ([], [])

/-- zkeymgr.cpp:177-207 `filterKeys`. -/
def filterKeys (km : KeyMgr G1 G2 GT) (userId : Bytes) (f : FInput) : List Bytes :=
  if userId = [] then []
  else (km.keys.filter fun p => FInput.opposite p.2.input f && decide (userId = p.2.userId)).map Prod.fst

/-- zkeymgr.cpp:209-229 `getKeyIds`. -/
def keyIds (km : KeyMgr G1 G2 GT) (userId : Bytes) (now : Nat) : List Bytes :=
  (km.keys.filter fun p => if userId = p.2.userId then decide (now = 0 ∨ p.2.expires ≤ now)
    else decide (0 < now ∧ p.2.expires ≤ now)).map Prod.fst

/-- zlsss.cpp:650-658 `checkIfSatisfied` on a policy object. -/
def checkPolicy (S : StdSort) (p : Policy) (A : List Bytes) : Res ((Bool × Int) × Policy) :=
  match p.root with
  | none => .ub
  | some t => do
    let (r, t') ← checkIfSatisfied S t A
    .ok (r, { p with root := some t' })

/-- zkeymgr.cpp:243-263 `testAKey`: the verdict, and the flags of the policy change. -/
def testAKey (S : StdSort) (m : Meta) (f : FInput) : Res ((Bool × Int) × Meta × FInput) :=
  match m.input, f with
  | _, .null => .throw .invalidInput
  | .attrs l, .policy p => do
    let (r, p') ← checkPolicy S p l.attrs
    .ok (r, m, .policy p')
  | .policy p, .attrs l => do
    let (r, p') ← checkPolicy S p l.attrs
    .ok (r, { m with input := .policy p' }, f)
  | _, _ => .throw .invalidCiphertextHeader

/-- zkeymgr.cpp:306-324, the loop of `searchKey`: the first satisfying key (if efficiency is no concern), or all
of them. A missing entry is the failing `assert`. -/
def searchLoop (env : KmEnv G1 G2 GT) (efficient : Bool) : List Bytes → KeyMgr G1 G2 GT → FInput →
    List (Bytes × Int) → Res (Option Bytes × List (Bytes × Int) × KeyMgr G1 G2 GT × FInput)
  | [], km, f, acc => .ok (none, acc, km, f)
  | id :: ids, km, f, acc =>
    match SMap.find id km.keys with
    | none => if env.ndebug then .ub else .abort
    | some m => do
      let (r, m', f') ← testAKey env.sort m f
      let km' := { km with keys := SMap.insert id m' km.keys }
      if r.1 = true then
        if efficient then searchLoop env efficient ids km' f' (acc ++ [(id, r.2)])
        else .ok (some id, acc, km', f')
      else searchLoop env efficient ids km' f' acc

/-- zkeymgr.cpp:265-270 and 297-331 `searchKeyCommand`, `searchKey`: the id (empty: none), the state and the input
afterwards. `rankKeyAlgorithm` does nothing. The query pointer is not null. -/
def search (env : KmEnv G1 G2 GT) (km : KeyMgr G1 G2 GT) (query : Query) (f : FInput) :
    Res (Bytes × KeyMgr G1 G2 GT × FInput) :=
  match f with
  | .null => .throw .invalidInput
  | _ => do
    let (first, acc, km', f') ← searchLoop env query.efficient (filterKeys km query.userId f) km f []
    match first with
    | some id => .ok (id, km', f')
    | none => match acc with
      | [] => .ok ([], km', f')
      | _ => match env.refs.fn acc with
        | (id, _) :: _ => .ok (id, km', f')
        | [] => .ub

/-- zkeymgr.cpp:272-295 `deleteKeyCommand`: `OpenABEKeystore::deleteKey` works on the base class maps. -/
def delete (km : KeyMgr G1 G2 GT) (query : Query) : Res (List Bytes) × KeyMgr G1 G2 GT :=
  let ids := keyIds km query.userId query.now
  if query.now = 0 ∧ query.userId = [] then (.throw .runtimeError, km)
  else
    let km1 := if 0 < query.now then km else { km with active := SMap.erase query.userId km.active }
    (.ok ids, { km1 with base := ids.foldl (fun b id => (b.deleteKey id).2) km1.base })

end KeyMgr
end Abe
