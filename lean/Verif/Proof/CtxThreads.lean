import Verif.Model.CtxThreads
import Verif.Proof.Threads
import Verif.Proof.LibThreads
import Verif.Proof.Maps
import Verif.Proof.Scheme
/-!
# Lemmas about contexts used by several threads
-/
set_option linter.unusedSimpArgs false
set_option linter.unusedSectionVars false
set_option autoImplicit false
namespace Abe
namespace Conc
variable {ob σ α β κ : Type}

/-! ### Programs that only read -/

/-- In the state `s`, the program only reads. -/
def Reads (s : σ) : Prog ob σ α → Prop
  | .ret _ => True
  | .act x u n => x.write = false ∧ u s = s ∧ Reads s (n s)
  | .lock _ => False
  | .unlock _ => False

theorem Reads.bind {s : σ} {p : Prog ob σ α} {k : α → Prog ob σ β} (hp : Reads s p) (hk : ∀ a, (p.alone s).1 = a → Reads s (k a)) :
    Reads s (p.bind k) := by
  induction p with
  | ret a => exact hk a rfl
  | act x u n ih =>
    obtain ⟨h1, h2, h3⟩ := hp
    refine ⟨h1, h2, ih s h3 fun a ha => hk a ?_⟩
    simp only [Prog.alone, h2]
    exact ha
  | lock p ih => exact hp.elim
  | unlock p ih => exact hp.elim

/-- Threads that only read: the state stays, and all results are those of the state. -/
theorem readers {prog : κ → Prog ob σ α} {s0 : σ} {todo : Nat → List κ} (hr : ∀ i, ∀ k ∈ todo i, Reads s0 (prog k))
    {evs : List (Event κ α)} {c : Cfg ob σ κ α} (h : Exec prog (start s0 todo) evs c) :
    c.st = s0 ∧ ∀ i,
      (∃ past rest, todo i = past ++ rest ∧ c.th i = ⟨rest, none⟩ ∧ resultsOf i evs = past.map fun k => ((prog k).alone s0).1) ∨
      (∃ past k rest p, todo i = past ++ k :: rest ∧ c.th i = ⟨rest, some p⟩ ∧ Reads s0 p ∧
        (p.alone s0).1 = ((prog k).alone s0).1 ∧ resultsOf i evs = past.map fun k => ((prog k).alone s0).1) := by
  induction h with
  | nil => exact ⟨rfl, fun i => .inl ⟨[], todo i, rfl, rfl, rfl⟩⟩
  | @snoc evs e c c' hx hs ih =>
    obtain ⟨hst, hth⟩ := ih
    cases hs with
    | call i k ks hi =>
      refine ⟨hst, fun j => ?_⟩
      have hres : resultsOf j (evs ++ [.call i k]) = resultsOf j evs := by rw [resultsOf_append]; simp [resultsOf]
      rw [hres]
      by_cases hj : j = i
      · subst hj
        rcases hth j with ⟨past, rest, h1, h2, h3⟩ | ⟨past, k', rest, p, h1, h2, -⟩
        · rw [hi] at h2
          simp only [Thread.mk.injEq, and_true] at h2
          subst h2
          refine .inr ⟨past, k, ks, prog k, h1, by simp, hr j k (by rw [h1]; simp), rfl, h3⟩
        · rw [hi] at h2; simp at h2
      · simp only [Function.update_of_ne hj]; exact hth j
    | act i ks x u n hi =>
      have key : x.write = false ∧ u c.st = s0 := by
        rcases hth i with ⟨past, rest, h1, h2, h3⟩ | ⟨past, k', rest, p, h1, h2, h4, h5, h3⟩
        · rw [hi] at h2; simp at h2
        · rw [hi] at h2
          simp only [Thread.mk.injEq, Option.some.injEq] at h2
          obtain ⟨rfl, rfl⟩ := h2
          rw [hst]
          exact ⟨h4.1, h4.2.1⟩
      refine ⟨key.2, fun j => ?_⟩
      have hres : resultsOf j (evs ++ [.tau i]) = resultsOf j evs := by rw [resultsOf_append]; simp [resultsOf]
      rw [hres]
      by_cases hj : j = i
      · subst hj
        rcases hth j with ⟨past, rest, h1, h2, h3⟩ | ⟨past, k', rest, p, h1, h2, h4, h5, h3⟩
        · rw [hi] at h2; simp at h2
        · rw [hi] at h2
          simp only [Thread.mk.injEq, Option.some.injEq] at h2
          obtain ⟨rfl, rfl⟩ := h2
          refine .inr ⟨past, k', ks, n c.st, h1, by simp, ?_, ?_, h3⟩
          · rw [hst]; exact h4.2.2
          · rw [← h5]; simp only [Prog.alone, h4.2.1, hst]
      · simp only [Function.update_of_ne hj]; exact hth j
    | lock i ks p hi ho =>
      rcases hth i with ⟨past, rest, h1, h2, h3⟩ | ⟨past, k', rest, p, h1, h2, h4, h5, h3⟩
      · rw [hi] at h2; simp at h2
      · rw [hi] at h2
        simp only [Thread.mk.injEq, Option.some.injEq] at h2
        obtain ⟨rfl, rfl⟩ := h2
        exact h4.elim
    | unlock i ks p hi ho =>
      rcases hth i with ⟨past, rest, h1, h2, h3⟩ | ⟨past, k', rest, p, h1, h2, h4, h5, h3⟩
      · rw [hi] at h2; simp at h2
      · rw [hi] at h2
        simp only [Thread.mk.injEq, Option.some.injEq] at h2
        obtain ⟨rfl, rfl⟩ := h2
        exact h4.elim
    | done i ks a hi =>
      refine ⟨hst, fun j => ?_⟩
      by_cases hj : j = i
      · subst hj
        rcases hth j with ⟨past, rest, h1, h2, h3⟩ | ⟨past, k', rest, p, h1, h2, h4, h5, h3⟩
        · rw [hi] at h2; simp at h2
        · rw [hi] at h2
          simp only [Thread.mk.injEq, Option.some.injEq] at h2
          obtain ⟨rfl, rfl⟩ := h2
          refine .inl ⟨past ++ [k'], ks, by rw [h1]; simp, by simp, ?_⟩
          rw [resultsOf_append, h3]
          simp only [resultsOf, if_true, List.map_append, List.map_cons, List.map_nil, ← h5, Prog.alone]
      · have hres : resultsOf j (evs ++ [.done i a]) = resultsOf j evs := by
          rw [resultsOf_append]; simp [resultsOf, Ne.symm hj]
        rw [hres]
        simp only [Function.update_of_ne hj]; exact hth j

/-- Threads that only read do not race. -/
theorem readers_no_race {prog : κ → Prog ob σ α} {s0 : σ} {todo : Nat → List κ} (hr : ∀ i, ∀ k ∈ todo i, Reads s0 (prog k))
    {evs : List (Event κ α)} {c : Cfg ob σ κ α} (h : Exec prog (start s0 todo) evs c) : ¬ Race c := by
  obtain ⟨-, hth⟩ := readers hr h
  have key : ∀ i ks x u n, c.th i = ⟨ks, some (.act x u n)⟩ → x.write = false := by
    intro i ks x u n hi
    rcases hth i with ⟨past, rest, h1, h2, h3⟩ | ⟨past, k', rest, p, h1, h2, h4, h5, h3⟩
    · rw [hi] at h2; simp at h2
    · rw [hi] at h2
      simp only [Thread.mk.injEq, Option.some.injEq] at h2
      obtain ⟨rfl, rfl⟩ := h2
      exact h4.1
  rintro ⟨i, j, ks, ls, x, y, u, v, n, m, -, hi, hj, -, hw⟩
  rw [key _ _ _ _ _ hi, key _ _ _ _ _ hj] at hw
  simp at hw

/-! ### Two threads in a reachable configuration -/

section Seen
variable {prog : κ → Prog ob σ α} {c0 : Cfg ob σ κ α} {i j : Nat} {ri rj : List α} {st : σ} {ti tj : Thread ob σ κ α}

/-- A reachable configuration, as two of the threads see it. -/
def Seen (prog : κ → Prog ob σ α) (c0 : Cfg ob σ κ α) (i j : Nat) (ri rj : List α) (st : σ) (ti tj : Thread ob σ κ α) : Prop :=
  ∃ evs c, Exec prog c0 evs c ∧ resultsOf i evs = ri ∧ resultsOf j evs = rj ∧ c.st = st ∧ c.th i = ti ∧ c.th j = tj

theorem Seen.begin (prog : κ → Prog ob σ α) (s : σ) (todo : Nat → List κ) (i j : Nat) :
    Seen prog (start s todo) i j [] [] s ⟨todo i, none⟩ ⟨todo j, none⟩ := ⟨[], _, .nil, rfl, rfl, rfl, rfl, rfl⟩

theorem Seen.swap (h : Seen prog c0 i j ri rj st ti tj) : Seen prog c0 j i rj ri st tj ti := by
  obtain ⟨evs, c, h1, h2, h3, h4, h5, h6⟩ := h
  exact ⟨evs, c, h1, h3, h2, h4, h6, h5⟩

theorem Seen.call {k : κ} {ks : List κ} (h : Seen prog c0 i j ri rj st ⟨k :: ks, none⟩ tj) (hij : i ≠ j) :
    Seen prog c0 i j ri rj st ⟨ks, some (prog k)⟩ tj := by
  obtain ⟨evs, c, h1, h2, h3, h4, h5, h6⟩ := h
  refine ⟨_, _, .snoc h1 (.call c i k ks h5), ?_, ?_, h4, by simp, by simp [hij.symm, h6]⟩
  · rw [resultsOf_append, h2]; simp [resultsOf]
  · rw [resultsOf_append, h3]; simp [resultsOf]

theorem Seen.act {ks : List κ} {x : Access ob} {u : σ → σ} {n : σ → Prog ob σ α}
    (h : Seen prog c0 i j ri rj st ⟨ks, some (.act x u n)⟩ tj) (hij : i ≠ j) :
    Seen prog c0 i j ri rj (u st) ⟨ks, some (n st)⟩ tj := by
  obtain ⟨evs, c, h1, h2, h3, h4, h5, h6⟩ := h
  subst h4
  refine ⟨_, _, .snoc h1 (.act c i ks x u n h5), ?_, ?_, rfl, by simp, by simp [hij.symm, h6]⟩
  · rw [resultsOf_append, h2]; simp [resultsOf]
  · rw [resultsOf_append, h3]; simp [resultsOf]

/-- A thread runs a part of its program without a break. -/
theorem Seen.run {ks : List κ} {p : Prog ob σ β} {k : β → Prog ob σ α} (h : Seen prog c0 i j ri rj st ⟨ks, some (p.bind k)⟩ tj)
    (hp : p.Plain) (hij : i ≠ j) : Seen prog c0 i j ri rj (p.alone st).2 ⟨ks, some (k (p.alone st).1)⟩ tj := by
  induction p generalizing st with
  | ret a => exact h
  | act x u n ih =>
    have h' := Seen.act (x := x) (u := u) (n := fun s => (n s).bind k) h hij
    exact ih st h' (hp st)
  | lock p ih => exact hp.elim
  | unlock p ih => exact hp.elim

theorem Seen.done {ks : List κ} {a : α} (h : Seen prog c0 i j ri rj st ⟨ks, some (.ret a)⟩ tj) (hij : i ≠ j) :
    Seen prog c0 i j (ri ++ [a]) rj st ⟨ks, none⟩ tj := by
  obtain ⟨evs, c, h1, h2, h3, h4, h5, h6⟩ := h
  refine ⟨_, _, .snoc h1 (.done c i ks a h5), ?_, ?_, h4, by simp, by simp [hij.symm, h6]⟩
  · rw [resultsOf_append, h2]; simp [resultsOf]
  · rw [resultsOf_append, h3]; simp [resultsOf, hij]

theorem Seen.race {ks ls : List κ} {o : ob} {w w' : Bool} {u v : σ → σ} {n m : σ → Prog ob σ α}
    (h : Seen prog c0 i j ri rj st ⟨ks, some (.act ⟨o, w⟩ u n)⟩ ⟨ls, some (.act ⟨o, w'⟩ v m)⟩) (hij : i ≠ j)
    (hw : w = true ∨ w' = true) : ∃ evs c, Exec prog c0 evs c ∧ Race c := by
  obtain ⟨evs, c, h1, -, -, -, h5, h6⟩ := h
  exact ⟨evs, c, h1, i, j, ks, ls, _, _, u, v, n, m, hij, h5, h6, rfl, hw⟩

end Seen
end Conc

namespace CtxThreads
open Conc
variable {G1 G2 GT : Type} {q : Nat} [Fact q.Prime]
variable [AddCommGroup G1] [Module (ZMod q) G1] [AddCommGroup G2] [Module (ZMod q) G2] [AddCommGroup GT]
  [Module (ZMod q) GT]

/-! ### The programs without other threads -/

theorem lookPub_alone (strict : Bool) (id : Bytes) (c : Ctx G1 G2 GT) :
    (lookPub strict id).alone c = ((c.ks.getPublicKey id).1, { c with ks := (c.ks.getPublicKey id).2 }) := by
  cases strict with
  | true => rfl
  | false =>
    simp only [lookPub, Bool.false_eq_true, if_false, Prog.alone]
    cases h : SMap.find id c.ks.pub with
    | none => rfl
    | some v => simp only [Prog.alone, KeyStore.getPublicKey, KeyStore.touch, h]

theorem lookSec_alone (strict : Bool) (id : Bytes) (c : Ctx G1 G2 GT) :
    (lookSec strict id).alone c = ((c.ks.getSecretKey id).1, { c with ks := (c.ks.getSecretKey id).2 }) := by
  cases strict with
  | true => rfl
  | false =>
    simp only [lookSec, Bool.false_eq_true, if_false, Prog.alone]
    cases h : SMap.find id c.ks.sec with
    | none => rfl
    | some v => simp only [Prog.alone, KeyStore.getSecretKey, KeyStore.touch, h]

theorem lookKey_alone (strict : Bool) (id : Bytes) (c : Ctx G1 G2 GT) :
    (lookKey strict id).alone c = ((c.ks.getKey id).1, { c with ks := (c.ks.getKey id).2 }) := by
  unfold lookKey KeyStore.getKey
  rw [Prog.alone_bind, lookPub_alone]
  cases h : (c.ks.getPublicKey id).1 with
  | none => simp only [h, lookSec_alone]
  | some k => simp only [h, Prog.alone]

theorem initCurve_alone (c : Ctx G1 G2 GT) : initCurve.alone c = ((), { c with ready := true }) := by
  cases c with
  | mk alg ready ks => cases ready <;> rfl

theorem lookPub_plain (strict : Bool) (id : Bytes) : (lookPub strict id : CtxProg G1 G2 GT _).Plain := by
  cases strict with
  | true => exact fun _ => trivial
  | false =>
    intro c
    simp only
    split
    · trivial
    · exact fun _ => trivial

theorem lookSec_plain (strict : Bool) (id : Bytes) : (lookSec strict id : CtxProg G1 G2 GT _).Plain := by
  cases strict with
  | true => exact fun _ => trivial
  | false =>
    intro c
    simp only
    split
    · trivial
    · exact fun _ => trivial

theorem lookKey_plain (strict : Bool) (id : Bytes) : (lookKey strict id : CtxProg G1 G2 GT _).Plain := by
  refine Prog.Plain.bind (lookPub_plain strict id) fun k => ?_
  cases k with
  | none => exact lookSec_plain strict id
  | some k => trivial

theorem initCurve_plain : (initCurve : CtxProg G1 G2 GT Unit).Plain := by
  intro c
  simp only
  split
  · trivial
  · exact fun _ => trivial

theorem checks_plain (strict : Bool) (mpkID mskID : Bytes) : (checks strict mpkID mskID : CtxProg G1 G2 GT Bool).Plain := by
  refine Prog.Plain.bind initCurve_plain fun _ => Prog.Plain.bind (lookKey_plain _ _) fun a => ?_
  cases a with
  | some k => trivial
  | none => exact Prog.Plain.bind (lookKey_plain _ _) fun b => trivial

/-- The ids are new. -/
theorem checks_alone (strict : Bool) (mpkID mskID : Bytes) (c : Ctx G1 G2 GT) :
    (checks strict mpkID mskID).alone c =
      (let v1 := c.ks.validateNewParamsID mpkID
       if v1.1 = false then (false, { c with ready := true, ks := v1.2 })
       else ((v1.2.validateNewParamsID mskID).1, { c with ready := true, ks := (v1.2.validateNewParamsID mskID).2 })) := by
  unfold checks KeyStore.validateNewParamsID
  rw [Prog.alone_bind, initCurve_alone, Prog.alone_bind, lookKey_alone]
  cases h : (c.ks.getKey mpkID).1 with
  | some k => simp [h, Prog.alone]
  | none => simp [h, Prog.alone_bind, lookKey_alone, Prog.alone]

end CtxThreads
end Abe
