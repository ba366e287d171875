import Verif.Model.Sym
/-!
# What a stream object is asked to do (specification of C151)

`Session` records what the user of a stream object has done since the last encryption or decryption was started:
the IV, the tag, the associated data and the pieces of data. `answer` says what a call answers, in terms of
encryptions and tags of whole messages; it uses no definition of the model but the types of calls and answers and
AES-GCM itself.
-/
set_option autoImplicit false
namespace Abe

/-- Associated data: collected and not yet passed on, whether there is any, passed on to the cipher. -/
structure Collected where
  pending : Bytes := []
  any : Bool := false
  fed : Bytes := []

inductive Session
  /-- Nothing is running; `left` zero bytes were left by the associated data of earlier sessions. -/
  | idle (left : Nat)
  /-- Encrypting the pieces `data`. -/
  | enc (iv : Bytes) (a : Collected) (data : List Bytes)
  /-- Decrypting the pieces `data`, which have been given the tag `tag`. -/
  | dec (iv tag : Bytes) (a : Collected) (data : List Bytes)
  /-- The end of an encryption of too much data was refused; the object takes it for `n` bytes. -/
  | stuck (a : Collected) (n : Nat)

namespace Session

/-- Collecting associated data; without any it is a block of zeros. -/
def collect (a : Collected) : Option Bytes → Collected
  | none => { a with pending := List.replicate 16 0, any := true }
  | some b => { a with pending := a.pending ++ b, any := true }

/-- Passing on associated data; too late once there is data. -/
def pass (a : Collected) (data : List Bytes) : Collected :=
  if a.any = true ∧ data = [] then { a with fed := a.fed ++ a.pending } else a

/-- The session after a call. -/
def next : Session → Stream.Call → Session
  | .idle l, .encInit iv => .enc iv { pending := List.replicate l 0 } []
  | .idle l, .decInit iv tag => .dec iv tag { pending := List.replicate l 0 } []
  | .enc iv a data, .initAad x => .enc iv (collect a x) data
  | .enc iv a data, .setAad => .enc iv (pass a data) data
  | .enc iv a data, .encUpdate m => if m = [] then .enc iv a data else .enc iv a (data ++ [m])
  | .enc iv a data, .encFinalize n =>
    if data = [] ∨ n ≠ data.flatten.length then .enc iv a data
    else if n < 2 ^ 32 then .idle a.pending.length
    else .stuck a (n / 2 ^ 32 * 2 ^ 32)
  | .dec iv tag a data, .initAad x => .dec iv tag (collect a x) data
  | .dec iv tag a data, .setAad => .dec iv tag (pass a data) data
  | .dec iv tag a data, .decUpdate m => if m = [] then .dec iv tag a data else .dec iv tag a (data ++ [m])
  | .dec iv tag a data, .decFinalize => if data = [] then .dec iv tag a data else .idle a.pending.length
  | .stuck a n, .initAad x => .stuck (collect a x) n
  | s, _ => s

/-- What a request to pass on associated data answers; `late`: there is data already. -/
def passed (a : Collected) (late : Prop) [Decidable late] : Sig :=
  if a.any = false then .ret (some .invalidInputType)
  else if late ∧ a.pending ≠ [] then .exc .invalidInput
  else .ret none

/-- What a call answers: how it ends and the bytes it gives out; `none`: undefined behaviour. -/
def answer (g : Gcm) (key : Bytes) : Session → Stream.Call → Option (Sig × Bytes)
  | _, .initAad _ => some (.ret none, [])
  | .idle _, .setAad => some (.ret (some .invalidInputType), [])
  | .enc _ a data, .setAad => some (passed a (data ≠ []), [])
  | .dec _ _ a data, .setAad => some (passed a (data ≠ []), [])
  | .stuck a _, .setAad => some (passed a True, [])
  | .idle _, .encInit iv => if key.length < 32 ∨ iv = [] then none else some (.ret none, iv)
  | .dec _ _ _ _, .encInit _ => some (.ret (some .invalidInput), [])
  | _, .encInit _ => some (.ret (some .inUseAlready), [])
  | .enc iv _ data, .encUpdate m =>
    if m = [] then some (.exc .invalidInput, [])
    else some (.ret none, (g.crypt (key.take 32) iv 0 (data ++ [m]).flatten).drop data.flatten.length)
  | .stuck _ _, .encUpdate _ => some (.exc .invalidInput, [])
  | _, .encUpdate _ => some (.ret none, [])
  | .enc iv a data, .encFinalize n =>
    if data = [] then some (.ret none, [])
    else if n ≠ data.flatten.length then some (.exc .invalidInput, [])
    else if n < 2 ^ 32 then
      some (.ret none, g.mac (key.take 32) iv a.fed (g.crypt (key.take 32) iv 0 data.flatten))
    else some (.exc .unexpectedExtraBytes, [])
  | .stuck _ k, .encFinalize n => some (.exc (if n = k then .unexpectedExtraBytes else .invalidInput), [])
  | _, .encFinalize _ => some (.ret none, [])
  | .idle _, .decInit iv _ => if key.length < 32 ∨ iv = [] then none else some (.ret none, [])
  | .dec _ _ _ _, .decInit _ _ => some (.ret none, [])
  | _, .decInit _ _ => some (.ret (some .invalidInput), [])
  | .dec iv _ _ data, .decUpdate m =>
    if m = [] then some (.ret (some .invalidInput), [])
    else some (.ret none, (g.crypt (key.take 32) iv 0 (data ++ [m]).flatten).drop data.flatten.length)
  | _, .decUpdate _ => some (.ret none, [])
  | .dec iv tag a data, .decFinalize =>
    if data = [] then some (.ret (some .invalidInput), [])
    else if 1 ≤ tag.length ∧ tag.length ≤ 16 ∧ tag <+: g.mac (key.take 32) iv a.fed data.flatten then
      some (.ret none, [])
    else some (.ret (some .decryptionFailed), [])
  | _, .decFinalize => some (.ret (some .invalidInput), [])

/-- What a sequence of calls answers; `none` if one of them is undefined. -/
def answers (g : Gcm) (key : Bytes) : Session → List Stream.Call → Option (List (Sig × Bytes))
  | _, [] => some []
  | s, c :: cs => do
    let a ← s.answer g key c
    let l ← answers g key (s.next c) cs
    some (a :: l)

end Session
end Abe

/-! ### Contexts -/
namespace Abe

/-- An encryption or a decryption that runs in a context: with key, IV and the pieces so far, or an encryption of too
much data whose end was refused. -/
inductive Running
  | none
  | some (key iv : Bytes) (data : List Bytes)
  | stuck (n : Nat)

/-- What the user of a stream context knows: the keys by name, the names that count as taken, what is running. -/
structure StreamUse where
  key : Bytes → Option SymKey := fun _ => .none
  taken : Bytes → Bool := fun _ => false
  enc : Running := .none
  dec : Running := .none

namespace StreamUse

/-- A name that is looked up counts as taken. -/
def take (u : StreamUse) (id : Bytes) : StreamUse := { u with taken := fun j => j == id || u.taken j }

/-- A key under a name. -/
def put (u : StreamUse) (id : Bytes) (k : SymKey) : StreamUse :=
  { u with key := fun j => if j = id then some k else u.key j, taken := fun j => j == id || u.taken j }

/-- The use after a call. -/
def next (u : StreamUse) : StreamCtx.Call → StreamUse
  | .keygen id rnd =>
    if u.taken id = false ∧ (rnd.length = 16 ∨ rnd.length = 32) then u.put id { data := rnd } else u
  | .exportKey id => u.take id
  | .load id blob rnd =>
    match SymKey.load {} blob rnd with
    | .ok r => u.put id r.2
    | _ => u
  | .delete id =>
    if (u.key id).isSome then
      { u with key := fun j => if j = id then none else u.key j, taken := fun j => j != id && u.taken j }
    else u.take id
  | .encInit id iv =>
    { u.take id with enc := match u.key id with | some k => .some k.data iv [] | none => .none }
  | .decInit id iv _ =>
    { u.take id with dec := match u.key id with | some k => .some k.data iv [] | none => .none }
  | .encUpdate m =>
    match u.enc with
    | .some key iv data => { u with enc := .some key iv (if m = [] then data else data ++ [m]) }
    | _ => u
  | .encFinalize n =>
    match u.enc with
    | .some _ _ data =>
      if data = [] then { u with enc := .none }
      else if n ≠ data.flatten.length then u
      else { u with enc := if n < 2 ^ 32 then .none else .stuck (n / 2 ^ 32 * 2 ^ 32) }
    | _ => u
  | .decUpdate m =>
    match u.dec with
    | .some key iv data => { u with dec := .some key iv (if m = [] then data else data ++ [m]) }
    | _ => u
  | .decFinalize => { u with dec := .none }

/-- What starting answers; `none`: undefined. -/
def start (u : StreamUse) (id iv out : Bytes) : Option (Sig × Bytes) :=
  match u.key id with
  | none => some (.ret (some .invalidKey), [])
  | some k => if k.data.length < 32 ∨ iv = [] then none else some (.ret none, out)

/-- What a call answers: how it ends and the bytes it gives out; `none`: undefined behaviour. -/
def answer (g : Gcm) (u : StreamUse) : StreamCtx.Call → Option (Sig × Bytes)
  | .keygen id rnd => some (.ret (
      if u.taken id then some .inUseAlready
      else if rnd.length = 16 ∨ rnd.length = 32 then none else some .invalidLength), [])
  | .exportKey id =>
    match u.key id with
    | none => some (.ret (some .invalidInput), [])
    | some k => some (.ret none, k.exportBase)
  | .load _ blob rnd =>
    match SymKey.load {} blob rnd with
    | .ok _ => some (.ret none, [])
    | .throw .outOfRange => some (.exc .outOfRange, [])
    | .throw e => some (.ret (some e), [])
    | _ => none
  | .delete _ => some (.ret none, [])
  | .encInit id iv => u.start id iv iv
  | .decInit id iv _ => u.start id iv []
  | .encUpdate m =>
    match u.enc with
    | .some key iv data =>
      if m = [] then some (.ret (some .invalidInput), [])
      else some (.ret none, (g.crypt (key.take 32) iv 0 (data ++ [m]).flatten).drop data.flatten.length)
    | _ => some (.ret (some .invalidInput), [])
  | .encFinalize n =>
    match u.enc with
    | .none => some (.ret (some .invalidInput), [])
    | .stuck k => some (.ret (some (if n = k then .unexpectedExtraBytes else .invalidInput)), [])
    | .some key iv data =>
      if data = [] then some (.ret none, [])
      else if n ≠ data.flatten.length then some (.ret (some .invalidInput), [])
      else if n < 2 ^ 32 then
        some (.ret none, g.mac (key.take 32) iv (List.replicate 16 0) (g.crypt (key.take 32) iv 0 data.flatten))
      else some (.ret (some .unexpectedExtraBytes), [])
  | .decUpdate m =>
    match u.dec with
    | .some key iv data =>
      some (.ret none, (g.crypt (key.take 32) iv 0 (data ++ [m]).flatten).drop data.flatten.length)
    | _ => some (.ret (some .invalidInput), [])
  | .decFinalize =>
    match u.dec with
    | .some _ _ _ => some (.ret none, [])
    | _ => some (.ret (some .invalidInput), [])

/-- What a sequence of calls answers; `none` if one of them is undefined. -/
def answers (g : Gcm) : StreamUse → List StreamCtx.Call → Option (List (Sig × Bytes))
  | _, [] => some []
  | u, c :: cs => do
    let a ← u.answer g c
    let l ← answers g (u.next c) cs
    some (a :: l)

end StreamUse
end Abe
