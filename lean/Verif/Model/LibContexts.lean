import Verif.Model.Library
import Mathlib.Logic.Function.Basic
/-!
# Library state together with the per-thread state contexts

src/abe/zabe.cpp:65-154 and include/abe_lsss.h:67-102: the global initialisation and shutdown, pairing objects, and any
number of `OpenABEStateContext` objects, in one thread (or in threads that share RELIC's context). What RELIC does is an
argument of each call that initialises it.
-/
set_option autoImplicit false
namespace Abe
namespace Lib

/-- The calls an application makes; state contexts have numbers. -/
inductive TCall
  /-- zabe.cpp:120 -/
  | init (ok : Bool)
  /-- zabe.cpp:133 -/
  | shutdown
  /-- zpairing.cpp:89 -/
  | pairing
  /-- include/abe_lsss.h:89-93, the constructor; the number denotes the new object from now on -/
  | enter (x : Nat) (ok : Bool)
  /-- zabe.cpp:140 -/
  | again (x : Nat) (ok : Bool)
  /-- zabe.cpp:147 -/
  | leave (x : Nat) (ok : Bool)
  /-- include/abe_lsss.h:95-100, the destructor -/
  | destroy (x : Nat) (ok : Bool)
  deriving DecidableEq

/-- The library and `isInitialized_` of the state contexts; `none`: there is no object. -/
structure World where
  lib : Lib := {}
  flag : Nat → Option Bool := fun _ => none

/-- include/abe_lsss.h:89-93, zabe.cpp:140-154: a call on a state context; without object it is undefined. -/
def World.onContext (w : World) (x : Nat) (f : Lib → Bool → Bool × Lib) : Res Unit × World :=
  match w.flag x with
  | none => (.ub, w)
  | some b => (.ok (), { lib := (f w.lib b).2, flag := Function.update w.flag x (some (f w.lib b).1) })

/-- One call: how it ends, and the state. The destructor (include/abe_lsss.h:95-100) runs `shutdownThread` if the flag is
set, and `shutdownThread` does nothing otherwise. -/
def World.call (w : World) : TCall → Res Unit × World
  | .init ok => ((w.lib.init ok).1, { w with lib := (w.lib.init ok).2 })
  | .shutdown => (w.lib.shutdown.1, { w with lib := w.lib.shutdown.2 })
  | .pairing => (w.lib.newPairing, w)
  | .enter x ok => (.ok (), { lib := (w.lib.threadNew ok).2, flag := Function.update w.flag x (some (w.lib.threadNew ok).1) })
  | .again x ok => w.onContext x fun l b => l.threadInit b ok
  | .leave x ok => w.onContext x fun l b => l.threadShutdown b ok
  | .destroy x ok =>
    let r := w.onContext x fun l b => if b then l.threadShutdown b ok else (b, l)
    (r.1, { r.2 with flag := Function.update r.2.flag x none })

/-- The state after a sequence of calls from the start of the process (zabe.cpp:50). -/
def World.run (cs : List TCall) : World := cs.foldl (fun w c => (w.call c).2) {}

end Lib
end Abe
