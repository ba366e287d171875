import Verif.Model.ContextMemory
import Verif.Spec.Memory
/-!
# What a context leaves behind

The calls on values are those of Model/SchemeObjects. Here: what a program on the heap looks like as values, and what each call
leaves behind.
-/
set_option autoImplicit false
namespace Abe
namespace Cm
open Live (Mut lift)
open Scheme
open Mem (Cell)
variable {G1 G2 GT : Type}

/-! ## Values -/

/-- The keystore with the containers of the keys as values. -/
def mapKeys {K K' : Type} (f : K → K') (ks : KeyStore K) : KeyStore K' :=
  ⟨ks.pub.map fun e => (e.1, e.2.map f), ks.sec.map fun e => (e.1, e.2.map f)⟩

/-- What the program holds as values, when container `i` has the components `v i`. -/
def asValues (v : Nat → Container G1 G2 GT) (w : Held G1 G2 GT) : Live.World G1 G2 GT where
  ctx := { alg := w.alg, ready := w.ready, ks := mapKeys (fun k => { k.hdr with comps := v k.cont }) w.ks }
  cts j := match w.cts j with
    | none => {}
    | some x => { x.1 with comps := v x.2 }

/-- The components of container `i` on the heap. -/
def components (m : Mem.World G1 G2 GT) (i : Nat) : Container G1 G2 GT :=
  match (m.conts[i]?).join with
  | none => []
  | some d => Mem.view m.heap d

/-- The program on the heap as values. -/
def seen (s : Mem.World G1 G2 GT × Held G1 G2 GT) : Live.World G1 G2 GT := asValues (components s.1) s.2

/-- The objects of the keys of a map. -/
def keyCells (m : SMap (Option (Key G1 G2 GT))) : List (Cell G1 G2 GT) :=
  m.flatMap fun e => match e.2 with
    | none => []
    | some k => Mem.objs k.comps

/-- The objects of all keys and of the first `n` ciphertexts. -/
def cells (n : Nat) (w : Live.World G1 G2 GT) : List (Cell G1 G2 GT) :=
  keyCells w.ctx.ks.pub ++ keyCells w.ctx.ks.sec ++ (List.range n).flatMap fun j => Mem.objs (w.cts j).comps

/-- The answer is a plaintext. -/
def isPlain : Res Live.Out → Bool
  | .ok (.plain none _) => true
  | _ => false

section Schemes
variable {q : Nat} [Fact q.Prime]
variable [AddCommGroup G1] [Module (ZMod q) G1] [AddCommGroup G2] [Module (ZMod q) G2] [AddCommGroup GT]
  [Module (ZMod q) GT]

/-- A history of calls on values. It ends at a call that is undefined or ends the process. -/
def history (env : Env G1 G2 GT) (cd : Codec G1 G2 GT) (sch : Scheme) (w : Live.World G1 G2 GT) :
    List (Live.Call q G1 G2) → List (Res Live.Out) × Live.World G1 G2 GT
  | [] => ([], w)
  | c :: cs =>
    match Live.step env cd sch w c with
    | (.ok a, w') => ((.ok a) :: (history env cd sch w' cs).1, (history env cd sch w' cs).2)
    | (.throw e, w') => ((.throw e) :: (history env cd sch w' cs).1, (history env cd sch w' cs).2)
    | (r, w') => ([r], w')

/-- The call uses ciphertexts below `n` only. -/
def below (n : Nat) : Live.Call q G1 G2 → Prop
  | .encrypt j _ _ _ _ => j < n
  | .decrypt _ j => j < n
  | .exportCt j => j < n
  | .loadCt j _ => j < n
  | _ => True

/-- `decryptKEM` of the key and the ciphertext. -/
def decapsulate (q : Nat) [Fact q.Prime] [Module (ZMod q) G1] (env : Env G1 G2 GT) (sch : Scheme) (c : Ctx G1 G2 GT) :
    Mut (Live.Two G1 G2 GT) Bytes :=
  match sch with
  | .cp => Live.cpDecBody q env c symKeyBytes
  | .kp => Live.kpDecBody q env c symKeyBytes

/-- One if there is a result. -/
def oneIfOk {α : Type} : Res α → Nat
  | .ok _ => 1
  | _ => 0

/-- How many objects and buffers a call leaves behind: one buffer for every session key that is derived, one for every group
element that is written, and the components that a loaded blob has under a name that comes again. -/
def left (env : Env G1 G2 GT) (cd : Codec G1 G2 GT) (sch : Scheme) (w : Live.World G1 G2 GT) : Live.Call q G1 G2 → Nat
  | .encrypt _ mpkID input _ r => match (w.ctx.ks.getPublicKey mpkID).1 with
    | none => 0
    | some mpk => oneIfOk (Live.encBody env sch w.ctx input r {} (mpk.comps, [])).1
  | .decrypt keyID j => match (w.ctx.ks.getSecretKey keyID).1 with
    | none => 0
    | some key => oneIfOk (decapsulate q env sch w.ctx (key.comps, (w.cts j).comps)).1
  | .exportKey id => match (w.ctx.ks.getKey id).1 with
    | none => 0
    | some key => (Mem.buffers cd key.comps).length
  | .exportCt j => (Mem.buffers cd (w.cts j).comps).length
  | .loadKey _ blob rnd _ => match (Key.parseHeader blob rnd : Res (Key G1 G2 GT × Bytes)) with
    | .ok hb => if hb.1.alg ≠ w.ctx.alg then 0
      else (Mem.overwritten [] (Mem.entries env.mktime cd hb.2 (hb.2.length + 1) 0)).length
    | _ => 0
  | .loadCt _ blob => match (ctHeader blob : Res (Ciphertext G1 G2 GT × Bytes)) with
    | .ok hb => (Mem.overwritten [] (Mem.entries env.mktime cd hb.2 (hb.2.length + 1) 0)).length
    | _ => 0
  | _ => 0

/-- How many objects and buffers a history leaves behind. -/
def leftBy (env : Env G1 G2 GT) (cd : Codec G1 G2 GT) (sch : Scheme) (w : Live.World G1 G2 GT) : List (Live.Call q G1 G2) → Nat
  | [] => 0
  | c :: cs => left env cd sch w c + leftBy env cd sch (Live.step env cd sch w c).2 cs

/-- The hashes in the names of the components that the call makes are different. -/
def distinct (env : Env G1 G2 GT) : Live.Call q G1 G2 → Prop
  | .keygen input _ _ _ r => ((Mem.inputAttrs input).map (hashKey env.md)).Nodup ∧
      ∀ y : ZMod q, ((Mem.inputRows env { r with x := y } input).map (hashKey env.md)).Nodup
  | .encrypt _ _ input _ r => ((Mem.inputAttrs input).map (hashKey env.md)).Nodup ∧
      ((Mem.inputRows env r input).map (hashKey env.md)).Nodup
  | _ => True

end Schemes
end Cm
end Abe
