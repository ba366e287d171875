import Verif.Model.Library
import Verif.Spec.Threads
/-!
# The library state with several threads (src/abe/zabe.cpp, src/abe/zpairing.cpp, include/abe_lsss.h)

Every access to the global variable, to a context of RELIC and to the flag of an `OpenABEStateContext` is a step of its own.
`slot i` is the context of RELIC that thread `i` uses: every thread has its own when RELIC is built for threads, all have
the same otherwise. Every thread has one `OpenABEStateContext`. `ok` is whether RELIC succeeds, as in Model/Library.
-/
set_option autoImplicit false
namespace Abe

/-- What the threads share: `gLibraryState` (zabe.cpp:50), contexts of RELIC, `isInitialized_` (include/abe_lsss.h:102). -/
inductive LibObj
  | state
  | relic (c : Nat)
  | flag (i : Nat)
  deriving DecidableEq

/-- Their values. -/
structure LibSt where
  ready : Bool := false
  math : Nat → Bool := fun _ => false
  flag : Nat → Bool := fun _ => false

/-- The calls of a thread. -/
inductive LibCall
  | init (ok : Bool)
  | shutdown
  | pairing
  | enter (ok : Bool)
  | initThread (ok : Bool)
  | leave (ok : Bool)
  deriving DecidableEq

namespace LibThreads
open Conc (Prog)

/-- Programs over the library. -/
abbrev LibProg := Prog LibObj LibSt (Res Unit)

/-- zpairing.cpp:57-64 `zMathInitLibrary`, and then `p`. -/
def mathInit (slot : Nat → Nat) (i : Nat) (ok : Bool) (p : LibProg) : LibProg :=
  .act ⟨.relic (slot i), true⟩ (fun s => { s with math := Function.update s.math (slot i) ok }) fun _ => p

/-- zabe.cpp:65-88 `OpenABE_initialize`, 120-126 `InitializeOpenABE`. -/
def init (slot : Nat → Nat) (i : Nat) (ok : Bool) : LibProg :=
  .act ⟨.state, false⟩ id fun s =>
    if s.ready = false then
      mathInit slot i ok (.act ⟨.state, true⟩ (fun s => { s with ready := true }) fun _ => .ret (.ok ()))
    else .ret (.throw .runtimeError)

/-- zpairing.cpp:72-77 `zMathShutdownLibrary`, zabe.cpp:96-106 `OpenABE_shutdown`, 133-138 `ShutdownOpenABE`. -/
def shutdown (slot : Nat → Nat) (i : Nat) : LibProg :=
  mathInit slot i false (.act ⟨.state, true⟩ (fun s => { s with ready := false }) fun _ => .ret (.ok ()))

/-- zabe.cpp:108-112 `AssertLibInit`, zpairing.cpp:89-95 the constructor of `OpenABEPairing`. -/
def pairing (slot : Nat → Nat) (i : Nat) : LibProg :=
  .act ⟨.state, false⟩ id fun s =>
    if s.ready = false then .ret (.throw .runtimeError)
    else .act ⟨.relic (slot i), false⟩ id fun s => .ret (if s.math (slot i) then .ok () else .ub)

/-- zabe.cpp:140-145 `initializeThread`, and then `p`. -/
def initThread (slot : Nat → Nat) (i : Nat) (ok : Bool) (p : LibProg) : LibProg :=
  .act ⟨.flag i, false⟩ id fun s => if s.flag i = false then mathInit slot i ok p else p

/-- include/abe_lsss.h:89-93, the constructor of `OpenABEStateContext`. -/
def enter (slot : Nat → Nat) (i : Nat) (ok : Bool) : LibProg :=
  .act ⟨.flag i, true⟩ (fun s => { s with flag := Function.update s.flag i false }) fun _ =>
    initThread slot i ok (.act ⟨.flag i, true⟩ (fun s => { s with flag := Function.update s.flag i true }) fun _ => .ret (.ok ()))

/-- zabe.cpp:147-154 `shutdownThread`, also from the destructor (include/abe_lsss.h:95-100). -/
def leave (slot : Nat → Nat) (i : Nat) (ok : Bool) : LibProg :=
  .act ⟨.flag i, false⟩ id fun s =>
    if s.flag i then
      mathInit slot i ok (.act ⟨.flag i, true⟩ (fun s => { s with flag := Function.update s.flag i false }) fun _ => .ret (.ok ()))
    else .ret (.ok ())

/-- A call of thread `k.1`. -/
def prog (slot : Nat → Nat) (k : Nat × LibCall) : LibProg :=
  match k.2 with
  | .init ok => init slot k.1 ok
  | .shutdown => shutdown slot k.1
  | .pairing => pairing slot k.1
  | .enter ok => enter slot k.1 ok
  | .initThread ok => initThread slot k.1 ok (.ret (.ok ()))
  | .leave ok => leave slot k.1 ok

/-- Thread `i` makes the calls `todo i`, starting from `s`. -/
def begin' (s : LibSt) (todo : Nat → List LibCall) : Conc.Cfg LibObj LibSt (Nat × LibCall) (Res Unit) :=
  Conc.start s fun i => (todo i).map fun k => (i, k)

end LibThreads
end Abe
