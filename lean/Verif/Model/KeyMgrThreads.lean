import Verif.Model.KeyMgr
import Verif.Spec.Threads
/-!
# The commands of the key manager as programs of threads (src/abe/zkeymgr.cpp)

Every access to a member of the key manager is a step of its own; parsing and comparing work on local objects. The
work of `testAKey` on a stored policy is one step. A loop over `keyMetadata_` visits the positions it had when the
loop began, which differs from the iterators of the code only if another thread changes the map in the meantime (a data
race). `operator[]` of a map is not `const` and counts as a change.
-/
set_option autoImplicit false
namespace Abe
variable {G1 G2 GT : Type}

/-- The members of the key manager (include/abe/zkeymgr.h:108-112); `base` stands for the maps of the base class. -/
inductive KmObj
  | keys | counter | pass | active | base
  deriving DecidableEq

/-- The public commands (include/abe/zkeymgr.h:79-97), with their arguments. -/
inductive KmCall
  | store (userId keyID blob : Bytes) (expires : Nat) (cache : Bool) (rnd : Bytes)
  | storePrefix (userId pre blob : Bytes) (expires : Nat) (cache : Bool) (rnd : Bytes)
  | get (userId keyID : Bytes)
  | search (q : Query) (f : FInput)
  | delete (q : Query)
  | passphrase (programId userId passphrase : Bytes)
  | users
  | count (userId : Bytes)

/-- What they return; a search also leaves the flags of its argument changed. -/
inductive KmRes
  | stored (r : Res Bool)
  | id (r : Res Bytes)
  | key (r : Res (Bytes × Bytes))
  | found (r : Res (Bytes × FInput))
  | ids (r : Res (List Bytes))
  | none
  | users (m : SMap Bytes)
  | count (n : Nat)

namespace KeyMgr
open Conc (Prog)

/-- Programs over a key manager. -/
abbrev KmProg (G1 G2 GT α : Type) := Prog KmObj (KeyMgr G1 G2 GT) α

/-- The body of a loop over `keyMetadata_`, from position `i` on, at most `n` times; the step says whether to go on. -/
def scanP {α : Type} (step : α → Bytes × Meta → Bool × α) : Nat → Nat → α → KmProg G1 G2 GT α
  | 0, _, a => .ret a
  | n + 1, i, a => (Prog.check .keys fun s : KeyMgr G1 G2 GT => s.keys[i]?).bind fun e =>
    match e with
    | .none => .ret a
    | some p => if (step a p).1 then scanP step n (i + 1) (step a p).2 else .ret (step a p).2

/-- A loop over `keyMetadata_`. -/
def forKeysP {α : Type} (step : α → Bytes × Meta → Bool × α) (a : α) : KmProg G1 G2 GT α :=
  (Prog.check .keys fun s : KeyMgr G1 G2 GT => s.keys.length).bind fun n => scanP step n 0 a

/-- zkeymgr.cpp:107-113, one round of the search for an equal key. -/
def dupStep (userId new : Bytes) (inp : FInput) (_ : Res Bool) (p : Bytes × Meta) : Bool × Res Bool :=
  match p.2.input.compact with
  | .ok s => if s = new ∧ FInput.sameType inp p.2.input = true ∧ userId = p.2.userId then (false, .ok true)
      else (true, .ok false)
  | .throw e => (false, .throw e)
  | .ub => (false, .ub)
  | .abort => (false, .abort)

/-- zkeymgr.cpp:73-133 `storeWithKeyIDCommand`; it does not take the mutex. -/
def storeP (env : KmEnv G1 G2 GT) (userId keyID blob : Bytes) (expires : Nat) (cache : Bool) (rnd : Bytes) :
    KmProg G1 G2 GT (Res Bool) :=
  if userId = [] ∧ env.ndebug = false then .ret .abort
  else (Prog.check .keys fun s => (SMap.find keyID s.keys).isSome).bind fun present =>
    (if present then Prog.change .keys (fun s => { s with keys := SMap.erase keyID s.keys }) fun _ => () else .ret ()).bind
      fun _ =>
    match parseBlob env blob rnd with
    | .ok .none => .ret (.ok false)
    | .ok (some (sid, inp)) =>
      match inp.compact with
      | .ok new => (forKeysP (dupStep userId new inp) (.ok false)).bind fun r =>
        match r with
        | .ok true => .ret (.ok false)
        | .ok false => Prog.change .keys
            (fun s => { s with keys := SMap.insert keyID ⟨userId, blob, expires, sid, inp, cache⟩ s.keys }) fun _ => .ok true
        | .throw e => .ret (.throw e)
        | .ub => .ret .ub
        | .abort => .ret .abort
      | .throw e => .ret (.throw e)
      | .ub => .ret .ub
      | .abort => .ret .abort
    | .throw e => .ret (.throw e)
    | .ub => .ret .ub
    | .abort => .ret .abort

/-- zkeymgr.cpp:142-154, the part of `storeWithKeyPrefixCommand` under the mutex. -/
def storePrefixP (env : KmEnv G1 G2 GT) (userId pre blob : Bytes) (expires : Nat) (cache : Bool) (rnd : Bytes) :
    KmProg G1 G2 GT (Res Bytes) :=
  (Prog.check .counter fun s => (SMap.find userId s.counter).isSome).bind fun present =>
  (if present then .ret () else Prog.change .counter (fun s => { s with counter := SMap.insert userId 0 s.counter })
    fun _ => ()).bind fun _ =>
  (Prog.change .counter id fun s : KeyMgr G1 G2 GT => count s userId).bind fun n =>
  (storeP env userId (pre ++ natDec n) blob expires cache rnd).bind fun r =>
  match r with
  | .ok true => (Prog.change .counter id fun s : KeyMgr G1 G2 GT => count s userId).bind fun m =>
    Prog.change .counter (fun s => { s with counter := SMap.insert userId ((m + 1) % maxKeys) s.counter })
      fun _ => .ok (pre ++ natDec n)
  | .ok false => .ret (.ok [])
  | .throw e => .ret (.throw e)
  | .ub => .ret .ub
  | .abort => .ret .abort

/-- zkeymgr.cpp:167-174, the part of `getKeyCommand` under the mutex. -/
def getKeyP (userId keyID : Bytes) : KmProg G1 G2 GT (Res (Bytes × Bytes)) :=
  (Prog.check .keys fun s => (SMap.find keyID s.keys).isSome).bind fun present =>
  if present then Prog.change .keys id fun s => getKey s userId keyID
  else .ret (.ok ([], []))

/-- zkeymgr.cpp:196-204, one round of `filterKeys`. -/
def filterStep (userId : Bytes) (f : FInput) (acc : List Bytes) (p : Bytes × Meta) : Bool × List Bytes :=
  (true, if FInput.opposite p.2.input f = true ∧ userId = p.2.userId then acc ++ [p.1] else acc)

/-- zkeymgr.cpp:216-227, one round of `getKeyIds`. -/
def idsStep (userId : Bytes) (now : Nat) (acc : List Bytes) (p : Bytes × Meta) : Bool × List Bytes :=
  (true, if userId = p.2.userId then if now = 0 ∨ p.2.expires ≤ now then acc ++ [p.1] else acc
    else if 0 < now ∧ p.2.expires ≤ now then acc ++ [p.1] else acc)

/-- zkeymgr.cpp:306-324, the loop of `searchKey`. -/
def searchLoopP (env : KmEnv G1 G2 GT) (efficient : Bool) : List Bytes → FInput → List (Bytes × Int) →
    KmProg G1 G2 GT (Res (Option Bytes × List (Bytes × Int) × FInput))
  | [], f, acc => .ret (.ok (none, acc, f))
  | id :: ids, f, acc =>
    (Prog.check .keys fun s => SMap.find id s.keys).bind fun e =>
    match e with
    | .none => .ret (if env.ndebug then .ub else .abort)
    | some m =>
      match testAKey env.sort m f with
      | .ok (r, m', f') =>
        (Prog.change .keys (fun s : KeyMgr G1 G2 GT => { s with keys := SMap.insert id m' s.keys }) fun _ => ()).bind fun _ =>
        if r.1 = true then
          if efficient then searchLoopP env efficient ids f' (acc ++ [(id, r.2)])
          else .ret (.ok (some id, acc, f'))
        else searchLoopP env efficient ids f' acc
      | .throw e => .ret (.throw e)
      | .ub => .ret .ub
      | .abort => .ret .abort

/-- zkeymgr.cpp:297-331 `searchKey`. -/
def searchP (env : KmEnv G1 G2 GT) (q : Query) (f : FInput) : KmProg G1 G2 GT (Res (Bytes × FInput)) :=
  match f with
  | .null => .ret (.throw .invalidInput)
  | _ =>
    (if q.userId = [] then .ret [] else forKeysP (filterStep q.userId f) []).bind fun ids =>
    (searchLoopP env q.efficient ids f []).bind fun r =>
    match r with
    | .ok (some id, _, f') => .ret (.ok (id, f'))
    | .ok (.none, acc, f') => .ret (match acc with
      | [] => .ok ([], f')
      | _ => match env.refs.fn acc with
        | (id, _) :: _ => .ok (id, f')
        | [] => .ub)
    | .throw e => .ret (.throw e)
    | .ub => .ret .ub
    | .abort => .ret .abort

/-- zkeymgr.cpp:290-293, the loop of `deleteKeyCommand`. -/
def deleteLoopP : List Bytes → KmProg G1 G2 GT Unit
  | [] => .ret ()
  | id :: ids => (Prog.change .base (fun s : KeyMgr G1 G2 GT => { s with base := (s.base.deleteKey id).2 }) fun _ => ()).bind
      fun _ => deleteLoopP ids

/-- zkeymgr.cpp:278-294, the part of `deleteKeyCommand` under the mutex. -/
def deleteP (q : Query) : KmProg G1 G2 GT (Res (List Bytes)) :=
  (forKeysP (idsStep q.userId q.now) []).bind fun ids =>
  if 0 < q.now then (deleteLoopP ids).bind fun _ => .ret (.ok ids)
  else if q.userId ≠ [] then
    (Prog.change .active (fun s : KeyMgr G1 G2 GT => { s with active := SMap.erase q.userId s.active }) fun _ => ()).bind fun _ =>
    (deleteLoopP ids).bind fun _ => .ret (.ok ids)
  else .ret (.throw .runtimeError)

/-- zkeymgr.cpp:63-66 `setPassphrase`, without the mutex. -/
def passphraseP (programId userId passphrase : Bytes) : KmProg G1 G2 GT Unit :=
  (Prog.change .pass (fun s : KeyMgr G1 G2 GT => { s with pass := SMap.insert userId passphrase s.pass }) fun _ => ()).bind
    fun _ => Prog.change .active (fun s => { s with active := SMap.insert userId programId s.active }) fun _ => ()

/-- The commands. `storeWithKeyPrefixCommand`, `getKeyCommand`, `searchKeyCommand` and `deleteKeyCommand` take the mutex
(zkeymgr.cpp:140, 165, 268, 277); `storeWithKeyIDCommand`, `setPassphrase`, `getActiveUsers` and `getUserKeyCount` do
not. -/
def prog (env : KmEnv G1 G2 GT) : KmCall → KmProg G1 G2 GT KmRes
  | .store u id blob x c rnd => (storeP env u id blob x c rnd).bind fun r => .ret (.stored r)
  | .storePrefix u pre blob x c rnd => ((storePrefixP env u pre blob x c rnd).bind fun r => .ret (.id r)).guarded
  | .get u id => ((getKeyP u id).bind fun r => .ret (.key r)).guarded
  | .search q f => ((searchP env q f).bind fun r => .ret (.found r)).guarded
  | .delete q => ((deleteP q).bind fun r => .ret (.ids r)).guarded
  | .passphrase p u s => (passphraseP p u s).bind fun _ => .ret .none
  | .users => Prog.check .active fun s => .users s.active
  | .count u => Prog.change .counter (fun s => (userKeyCount s u).2) fun s => .count (userKeyCount s u).1

end KeyMgr

/-- The commands that take the mutex. -/
def KmCall.Locked : KmCall → Prop
  | .storePrefix .. => True
  | .get .. => True
  | .search .. => True
  | .delete .. => True
  | _ => False

end Abe
