import Verif.Model.LibThreads
/-!
# What threads may expect of the library (C124)

`runAll` is one thread alone. The rest says in words of the callers who follows include/abe_lsss.h:66-81.
-/
set_option autoImplicit false
namespace Abe

/-- Calls one after the other, without other threads. -/
def Conc.runAll {ob σ α κ : Type} (prog : κ → Conc.Prog ob σ α) (s : σ) : List κ → List α × σ
  | [] => ([], s)
  | k :: ks => (((prog k).alone s).1 :: (runAll prog ((prog k).alone s).2 ks).1, (runAll prog ((prog k).alone s).2 ks).2)

/-- What one thread sees of the state, as the state of Model/Library. -/
def LibSt.seenBy (s : LibSt) (c : Nat) : Lib := ⟨s.ready, s.math c⟩

/-- The call does not initialise the library or shut it down. -/
def LibCall.perThread : LibCall → Prop
  | .init _ => False
  | .shutdown => False
  | _ => True

/-- A call for which RELIC succeeds. -/
def LibCall.succeeds : LibCall → Prop
  | .init ok => ok = true
  | .enter ok => ok = true
  | .initThread ok => ok = true
  | .leave ok => ok = true
  | _ => True

/-- A thread that follows the documentation: it makes an `OpenABEStateContext` before anything else, unless it has a context of
RELIC already (`has`) because it initialised the library, and it leaves the library itself alone. -/
def Documented (has : Bool) (ks : List LibCall) : Prop :=
  (∀ k ∈ ks, k.perThread ∧ k.succeeds) ∧ (has = true ∨ ks = [] ∨ ∃ rest, ks = .enter true :: rest)

end Abe
