import Verif.Spec.Threads
/-!
# Programs under one mutex are linearizable
-/
set_option autoImplicit false
namespace Abe.Conc
variable {ob σ α β κ : Type}

namespace Prog

theorem bind_ret (p : Prog ob σ α) : p.bind ret = p := by
  induction p with
  | ret a => rfl
  | act x u n ih => simp only [bind]; congr; funext s; exact ih s
  | lock p ih => simp only [bind, ih]
  | unlock p ih => simp only [bind, ih]

theorem alone_bind (p : Prog ob σ α) (k : α → Prog ob σ β) (s : σ) :
    (p.bind k).alone s = (k (p.alone s).1).alone (p.alone s).2 := by
  induction p generalizing s with
  | ret a => rfl
  | act x u n ih => simp only [bind, alone]; exact ih s (u s)
  | lock p ih => exact ih s
  | unlock p ih => exact ih s

theorem alone_guarded (p : Prog ob σ α) (s : σ) : p.guarded.alone s = p.alone s := by
  simp only [guarded, alone, alone_bind]

theorem Plain.bind {p : Prog ob σ α} {k : α → Prog ob σ β} (hp : p.Plain) (hk : ∀ a, (k a).Plain) : (p.bind k).Plain := by
  induction p with
  | ret a => exact hk a
  | act x u n ih => exact fun s => ih s (hp s)
  | lock p ih => exact hp.elim
  | unlock p ih => exact hp.elim

end Prog

open Prog

theorem callsOf_append (i : Nat) : ∀ a b : List (Event κ α), callsOf i (a ++ b) = callsOf i a ++ callsOf i b
  | [], _ => rfl
  | .call j k :: a, b => by
    simp only [List.cons_append, callsOf]
    split <;> simp [callsOf_append i a b]
  | .done j r :: a, b => callsOf_append i a b
  | .tau j :: a, b => callsOf_append i a b

theorem resultsOf_append (i : Nat) : ∀ a b : List (Event κ α), resultsOf i (a ++ b) = resultsOf i a ++ resultsOf i b
  | [], _ => rfl
  | .done j k :: a, b => by
    simp only [List.cons_append, resultsOf]
    split <;> simp [resultsOf_append i a b]
  | .call j r :: a, b => resultsOf_append i a b
  | .tau j :: a, b => resultsOf_append i a b

theorem ofThread_append (i : Nat) (a b : List (Nat × κ × α)) : ofThread i (a ++ b) = ofThread i a ++ ofThread i b := by
  simp [ofThread]

/-- Where a thread is. -/
inductive Status (prog : κ → Prog ob σ α) (c : Cfg ob σ κ α) (evs : List (Event κ α)) (L : List (Nat × κ × α)) (sq : σ)
    (i : Nat) : Prop
  | idle : (c.th i).cur = none → c.owner ≠ some i → (ofThread i L).map Prod.fst = callsOf i evs →
      (ofThread i L).map Prod.snd = resultsOf i evs → Status prog c evs L sq i
  | waiting (k : κ) (b : Prog ob σ α) : b.Plain → prog k = b.guarded → (c.th i).cur = some b.guarded → c.owner ≠ some i →
      (ofThread i L).map Prod.fst ++ [k] = callsOf i evs → (ofThread i L).map Prod.snd = resultsOf i evs →
      Status prog c evs L sq i
  | inside (b : Prog ob σ α) (a : α) : b.Plain → (c.th i).cur = some (b.bind fun a => .unlock (.ret a)) →
      c.owner = some i → (ofThread i L).map Prod.fst = callsOf i evs →
      (ofThread i L).map Prod.snd = resultsOf i evs ++ [a] → b.alone c.st = (a, sq) → Status prog c evs L sq i
  | leaving (a : α) : (c.th i).cur = some (.ret a) → c.owner ≠ some i → (ofThread i L).map Prod.fst = callsOf i evs →
      (ofThread i L).map Prod.snd = resultsOf i evs ++ [a] → Status prog c evs L sq i

/-- The invariant. -/
structure Inv (prog : κ → Prog ob σ α) (s0 : σ) (c : Cfg ob σ κ α) (evs : List (Event κ α)) (L : List (Nat × κ × α))
    (sq : σ) : Prop where
  legal : Legal (fun k => (prog k).alone) s0 L sq
  th : ∀ i, Status prog c evs L sq i
  free : c.owner = none → c.st = sq
  todo : ∀ i, ∀ k ∈ (c.th i).todo, ∃ b : Prog ob σ α, b.Plain ∧ prog k = b.guarded
  moments : ∀ e1 e2, evs = e1 ++ e2 → ∃ L1 L2, L = L1 ++ L2 ∧
    ∀ i, (resultsOf i e1).length ≤ (ofThread i L1).length ∧ (ofThread i L1).length ≤ (callsOf i e1).length

/-- The last moment follows from the places of the threads. -/
theorem Status.count {prog : κ → Prog ob σ α} {c : Cfg ob σ κ α} {evs : List (Event κ α)} {L : List (Nat × κ × α)} {sq : σ}
    {i : Nat} (h : Status prog c evs L sq i) :
    (resultsOf i evs).length ≤ (ofThread i L).length ∧ (ofThread i L).length ≤ (callsOf i evs).length := by
  cases h with
  | idle _ _ h3 h4 =>
    rw [← h3, ← h4]; simp
  | waiting k b _ _ _ _ h3 h4 =>
    rw [← h3, ← h4]; simp
  | inside b a _ _ _ h3 h4 _ =>
    rw [← h3]
    have := congrArg List.length h4
    simp at this ⊢
    omega
  | leaving a _ _ h3 h4 =>
    rw [← h3]
    have := congrArg List.length h4
    simp at this ⊢
    omega

theorem moments_step {evs : List (Event κ α)} {e : Event κ α} {L X : List (Nat × κ × α)}
    (h : ∀ e1 e2, evs = e1 ++ e2 → ∃ L1 L2, L = L1 ++ L2 ∧
      ∀ i, (resultsOf i e1).length ≤ (ofThread i L1).length ∧ (ofThread i L1).length ≤ (callsOf i e1).length)
    (hlast : ∀ i, (resultsOf i (evs ++ [e])).length ≤ (ofThread i (L ++ X)).length ∧
      (ofThread i (L ++ X)).length ≤ (callsOf i (evs ++ [e])).length) :
    ∀ e1 e2, evs ++ [e] = e1 ++ e2 → ∃ L1 L2, L ++ X = L1 ++ L2 ∧
      ∀ i, (resultsOf i e1).length ≤ (ofThread i L1).length ∧ (ofThread i L1).length ≤ (callsOf i e1).length := by
  intro e1 e2 he
  rcases List.eq_nil_or_concat e2 with rfl | ⟨e2', x, rfl⟩
  · rw [List.append_nil] at he
    subst he
    exact ⟨L ++ X, [], by simp, hlast⟩
  · rw [List.concat_eq_append, ← List.append_assoc] at he
    have h1 := (List.append_inj' he rfl).1
    obtain ⟨L1, L2, rfl, h3⟩ := h e1 e2' h1
    exact ⟨L1, L2 ++ X, by simp, h3⟩

theorem inv_step {prog : κ → Prog ob σ α} {s0 : σ} {c c' : Cfg ob σ κ α} {evs : List (Event κ α)} {e : Event κ α}
    {L : List (Nat × κ × α)} {sq : σ} (h : Inv prog s0 c evs L sq) (hs : Step prog c e c') :
    ∃ L' sq', Inv prog s0 c' (evs ++ [e]) L' sq' := by
  cases hs with
  | call i k ks hi =>
    obtain ⟨b, hb, hk⟩ := h.todo i k (by rw [hi]; simp)
    have hcall : ∀ j, callsOf j (evs ++ [Event.call i k]) = callsOf j evs ++ (if i = j then [k] else ([] : List κ)) := by
      intro j; rw [callsOf_append]; simp only [callsOf]
    have hres : ∀ j, resultsOf j (evs ++ [Event.call (α := α) i k]) = resultsOf j evs := by
      intro j; rw [resultsOf_append]; simp [resultsOf]
    have hth : ∀ j, Status prog { c with th := Function.update c.th i ⟨ks, some (prog k)⟩ } (evs ++ [Event.call i k]) L sq j := by
      intro j
      by_cases hj : j = i
      · subst hj
        have hst := h.th j
        cases hst with
        | idle h1 h2 h3 h4 =>
          refine .waiting k b hb hk (by simp [hk]) h2 ?_ ?_
          · rw [hcall, if_pos rfl, h3]
          · rw [hres, h4]
        | waiting k' b' _ _ h1 => rw [hi] at h1; simp at h1
        | inside b' a _ h1 => rw [hi] at h1; simp at h1
        | leaving a h1 => rw [hi] at h1; simp at h1
      · have e1 : callsOf j (evs ++ [Event.call (α := α) i k]) = callsOf j evs := by
          rw [hcall, if_neg (fun h => hj h.symm), List.append_nil]
        have e2 : ({ c with th := Function.update c.th i ⟨ks, some (prog k)⟩ } : Cfg ob σ κ α).th j = c.th j := by simp [hj]
        cases h.th j with
        | idle h1 h2 h3 h4 => exact .idle (by rw [e2]; exact h1) h2 (by rw [e1]; exact h3) (by rw [hres]; exact h4)
        | waiting k' b' g1 g2 h1 h2 h3 h4 =>
          exact .waiting k' b' g1 g2 (by rw [e2]; exact h1) h2 (by rw [e1]; exact h3) (by rw [hres]; exact h4)
        | inside b' a g1 h1 h2 h3 h4 h5 =>
          exact .inside b' a g1 (by rw [e2]; exact h1) h2 (by rw [e1]; exact h3) (by rw [hres]; exact h4) h5
        | leaving a h1 h2 h3 h4 => exact .leaving a (by rw [e2]; exact h1) h2 (by rw [e1]; exact h3) (by rw [hres]; exact h4)
    refine ⟨L, sq, h.legal, hth, h.free, ?_, ?_⟩
    · intro j k' hk'
      by_cases hj : j = i
      · subst hj
        simp only [Function.update_self] at hk'
        exact h.todo j k' (by rw [hi]; simp [hk'])
      · simp only [Function.update_of_ne hj] at hk'
        exact h.todo j k' hk'
    · have := moments_step (X := []) h.moments (by
        intro j
        simp only [List.append_nil]
        exact (hth j).count)
      simpa using this
  | act i ks x u n hi =>
    have hcall : ∀ j, callsOf j (evs ++ [Event.tau (κ := κ) (α := α) i]) = callsOf j evs := by
      intro j; rw [callsOf_append]; simp [callsOf]
    have hres : ∀ j, resultsOf j (evs ++ [Event.tau (κ := κ) (α := α) i]) = resultsOf j evs := by
      intro j; rw [resultsOf_append]; simp [resultsOf]
    have hst := h.th i
    cases hst with
    | idle h1 => rw [hi] at h1; simp at h1
    | waiting k b' _ _ h1 => rw [hi] at h1; simp [Prog.guarded] at h1
    | leaving a h1 => rw [hi] at h1; simp at h1
    | inside b a hb h1 h2 h3 h4 h5 =>
      rw [hi] at h1
      simp only [Option.some.injEq] at h1
      cases b with
      | ret r => simp [Prog.bind] at h1
      | lock p => exact hb.elim
      | unlock p => exact hb.elim
      | act x' u' n' =>
        simp only [Prog.bind, Prog.act.injEq] at h1
        obtain ⟨rfl, rfl, rfl⟩ := h1
        have hth : ∀ j, Status prog { c with st := u c.st, th := Function.update c.th i ⟨ks, some ((n' c.st).bind fun a => .unlock (.ret a))⟩ }
            (evs ++ [Event.tau i]) L sq j := by
          intro j
          by_cases hj : j = i
          · subst hj
            refine .inside (n' c.st) a (hb c.st) (by simp) h2 ?_ ?_ h5
            · rw [hcall, h3]
            · rw [hres, h4]
          · have e2 : ({ c with st := u c.st, th := Function.update c.th i ⟨ks, some ((n' c.st).bind fun a => .unlock (.ret a))⟩ } :
                Cfg ob σ κ α).th j = c.th j := by simp [hj]
            cases h.th j with
            | idle h1 h2 h3 h4 => exact .idle (by rw [e2]; exact h1) h2 (by rw [hcall]; exact h3) (by rw [hres]; exact h4)
            | waiting k' b' g1 g2 h1 h2 h3 h4 =>
              exact .waiting k' b' g1 g2 (by rw [e2]; exact h1) h2 (by rw [hcall]; exact h3) (by rw [hres]; exact h4)
            | inside b' a g1 h1 h2' h3 h4 h5 =>
              rw [h2] at h2'
              simp only [Option.some.injEq] at h2'
              exact absurd h2'.symm hj
            | leaving a h1 h2 h3 h4 =>
              exact .leaving a (by rw [e2]; exact h1) h2 (by rw [hcall]; exact h3) (by rw [hres]; exact h4)
        refine ⟨L, sq, h.legal, hth, ?_, ?_, ?_⟩
        · intro ho
          simp only at ho
          rw [h2] at ho
          simp at ho
        · intro j k' hk'
          by_cases hj : j = i
          · subst hj
            simp only [Function.update_self] at hk'
            exact h.todo j k' (by rw [hi]; simp [hk'])
          · simp only [Function.update_of_ne hj] at hk'
            exact h.todo j k' hk'
        · have := moments_step (X := []) h.moments (by
            intro j
            simp only [List.append_nil]
            exact (hth j).count)
          simpa using this
  | lock i ks p hi ho =>
    have hcall : ∀ j, callsOf j (evs ++ [Event.tau (κ := κ) (α := α) i]) = callsOf j evs := by
      intro j; rw [callsOf_append]; simp [callsOf]
    have hres : ∀ j, resultsOf j (evs ++ [Event.tau (κ := κ) (α := α) i]) = resultsOf j evs := by
      intro j; rw [resultsOf_append]; simp [resultsOf]
    have hst := h.th i
    cases hst with
    | idle h1 => rw [hi] at h1; simp at h1
    | inside b a hb h1 h2 => rw [ho] at h2; simp at h2
    | leaving a h1 => rw [hi] at h1; simp at h1
    | waiting k b hb hk h1 h2 h3 h4 =>
      rw [hi] at h1
      simp only [Prog.guarded, Option.some.injEq, Prog.lock.injEq] at h1
      subst h1
      have hof : ∀ j, ofThread j (L ++ [(i, k, (b.alone c.st).1)]) =
          ofThread j L ++ (if i = j then [(k, (b.alone c.st).1)] else []) := by
        intro j
        rw [ofThread_append]
        by_cases hj : i = j <;> simp [ofThread, hj]
      have hth : ∀ j, Status prog { c with owner := some i, th := Function.update c.th i ⟨ks, some (b.bind fun a => .unlock (.ret a))⟩ }
          (evs ++ [Event.tau i]) (L ++ [(i, k, (b.alone c.st).1)]) (b.alone c.st).2 j := by
        intro j
        by_cases hj : j = i
        · subst hj
          refine .inside b (b.alone c.st).1 hb (by simp) rfl ?_ ?_ rfl
          · rw [hcall, hof, if_pos rfl, ← h3]; simp
          · rw [hres, hof, if_pos rfl, ← h4]; simp
        · have e2 : ({ c with owner := some i, th := Function.update c.th i ⟨ks, some (b.bind fun a => .unlock (.ret a))⟩ } :
              Cfg ob σ κ α).th j = c.th j := by simp [hj]
          have e3 : ofThread j (L ++ [(i, k, (b.alone c.st).1)]) = ofThread j L := by
            rw [hof, if_neg (fun h => hj h.symm), List.append_nil]
          have ho' : (some i : Option Nat) ≠ some j := by simp only [ne_eq, Option.some.injEq]; exact fun h => hj h.symm
          cases h.th j with
          | idle h1 h2 h3 h4 =>
            exact .idle (by rw [e2]; exact h1) ho' (by rw [hcall, e3]; exact h3) (by rw [hres, e3]; exact h4)
          | waiting k' b' g1 g2 h1 h2 h3 h4 =>
            exact .waiting k' b' g1 g2 (by rw [e2]; exact h1) ho' (by rw [hcall, e3]; exact h3) (by rw [hres, e3]; exact h4)
          | inside b' a g1 h1 h2' h3 h4 h5 => rw [ho] at h2'; simp at h2'
          | leaving a h1 h2 h3 h4 =>
            exact .leaving a (by rw [e2]; exact h1) ho' (by rw [hcall, e3]; exact h3) (by rw [hres, e3]; exact h4)
      refine ⟨_, _, .snoc i k (b.alone c.st).1 h.legal ?_, hth, ?_, ?_, ?_⟩
      · rw [← h.free ho]
        show (prog k).alone c.st = _
        rw [hk, Prog.alone_guarded]
      · intro ho'; simp at ho'
      · intro j k' hk'
        by_cases hj : j = i
        · subst hj
          simp only [Function.update_self] at hk'
          exact h.todo j k' (by rw [hi]; simp [hk'])
        · simp only [Function.update_of_ne hj] at hk'
          exact h.todo j k' hk'
      · exact moments_step h.moments fun j => (hth j).count
  | unlock i ks p hi ho =>
    have hcall : ∀ j, callsOf j (evs ++ [Event.tau (κ := κ) (α := α) i]) = callsOf j evs := by
      intro j; rw [callsOf_append]; simp [callsOf]
    have hres : ∀ j, resultsOf j (evs ++ [Event.tau (κ := κ) (α := α) i]) = resultsOf j evs := by
      intro j; rw [resultsOf_append]; simp [resultsOf]
    have hst := h.th i
    cases hst with
    | idle h1 => rw [hi] at h1; simp at h1
    | waiting k b hb hk h1 => rw [hi] at h1; simp [Prog.guarded] at h1
    | leaving a h1 => rw [hi] at h1; simp at h1
    | inside b a hb h1 h2 h3 h4 h5 =>
      rw [hi] at h1
      simp only [Option.some.injEq] at h1
      cases b with
      | act x u n => simp [Prog.bind] at h1
      | lock p => exact hb.elim
      | unlock p => exact hb.elim
      | ret r =>
        simp only [Prog.bind, Prog.unlock.injEq] at h1
        subst h1
        simp only [Prog.alone, Prod.mk.injEq] at h5
        obtain ⟨rfl, hst⟩ := h5
        have hth : ∀ j, Status prog { c with owner := none, th := Function.update c.th i ⟨ks, some (.ret r)⟩ }
            (evs ++ [Event.tau i]) L sq j := by
          intro j
          by_cases hj : j = i
          · subst hj
            exact .leaving r (by simp) (by simp) (by rw [hcall, h3]) (by rw [hres, h4])
          · have e2 : ({ c with owner := none, th := Function.update c.th i ⟨ks, some (.ret r)⟩ } : Cfg ob σ κ α).th j = c.th j := by
              simp [hj]
            cases h.th j with
            | idle h1 h2 h3 h4 => exact .idle (by rw [e2]; exact h1) (by simp) (by rw [hcall]; exact h3) (by rw [hres]; exact h4)
            | waiting k' b' g1 g2 h1 h2 h3 h4 =>
              exact .waiting k' b' g1 g2 (by rw [e2]; exact h1) (by simp) (by rw [hcall]; exact h3) (by rw [hres]; exact h4)
            | inside b' a g1 h1 h2' h3 h4 h5 =>
              rw [h2] at h2'
              simp only [Option.some.injEq] at h2'
              exact absurd h2'.symm hj
            | leaving a h1 h2 h3 h4 =>
              exact .leaving a (by rw [e2]; exact h1) (by simp) (by rw [hcall]; exact h3) (by rw [hres]; exact h4)
        refine ⟨L, sq, h.legal, hth, fun _ => hst, ?_, ?_⟩
        · intro j k' hk'
          by_cases hj : j = i
          · subst hj
            simp only [Function.update_self] at hk'
            exact h.todo j k' (by rw [hi]; simp [hk'])
          · simp only [Function.update_of_ne hj] at hk'
            exact h.todo j k' hk'
        · have := moments_step (X := []) h.moments (by
            intro j
            simp only [List.append_nil]
            exact (hth j).count)
          simpa using this
  | done i ks a hi =>
    have hcall : ∀ j, callsOf j (evs ++ [Event.done (κ := κ) i a]) = callsOf j evs := by
      intro j; rw [callsOf_append]; simp [callsOf]
    have hres : ∀ j, resultsOf j (evs ++ [Event.done (κ := κ) i a]) = resultsOf j evs ++ (if i = j then [a] else []) := by
      intro j; rw [resultsOf_append]; simp only [resultsOf]
    have hst := h.th i
    cases hst with
    | idle h1 => rw [hi] at h1; simp at h1
    | waiting k b hb hk h1 => rw [hi] at h1; simp [Prog.guarded] at h1
    | inside b a' hb h1 =>
      rw [hi] at h1
      simp only [Option.some.injEq] at h1
      cases b with
      | act x u n => simp [Prog.bind] at h1
      | lock p => exact hb.elim
      | unlock p => exact hb.elim
      | ret r => simp [Prog.bind] at h1
    | leaving a' h1 h2 h3 h4 =>
      rw [hi] at h1
      simp only [Option.some.injEq, Prog.ret.injEq] at h1
      subst h1
      have hth : ∀ j, Status prog { c with th := Function.update c.th i ⟨ks, none⟩ } (evs ++ [Event.done i a]) L sq j := by
        intro j
        by_cases hj : j = i
        · subst hj
          exact .idle (by simp) h2 (by rw [hcall, h3]) (by rw [hres, if_pos rfl, h4])
        · have e2 : ({ c with th := Function.update c.th i ⟨ks, none⟩ } : Cfg ob σ κ α).th j = c.th j := by simp [hj]
          have e3 : resultsOf j (evs ++ [Event.done (κ := κ) i a]) = resultsOf j evs := by
            rw [hres, if_neg (fun h => hj h.symm), List.append_nil]
          cases h.th j with
          | idle h1 h2 h3 h4 => exact .idle (by rw [e2]; exact h1) h2 (by rw [hcall]; exact h3) (by rw [e3]; exact h4)
          | waiting k' b' g1 g2 h1 h2 h3 h4 =>
            exact .waiting k' b' g1 g2 (by rw [e2]; exact h1) h2 (by rw [hcall]; exact h3) (by rw [e3]; exact h4)
          | inside b' a g1 h1 h2 h3 h4 h5 =>
            exact .inside b' a g1 (by rw [e2]; exact h1) h2 (by rw [hcall]; exact h3) (by rw [e3]; exact h4) h5
          | leaving a h1 h2 h3 h4 =>
            exact .leaving a (by rw [e2]; exact h1) h2 (by rw [hcall]; exact h3) (by rw [e3]; exact h4)
      refine ⟨L, sq, h.legal, hth, h.free, ?_, ?_⟩
      · intro j k' hk'
        by_cases hj : j = i
        · subst hj
          simp only [Function.update_self] at hk'
          exact h.todo j k' (by rw [hi]; simp [hk'])
        · simp only [Function.update_of_ne hj] at hk'
          exact h.todo j k' hk'
      · have := moments_step (X := []) h.moments (by
          intro j
          simp only [List.append_nil]
          exact (hth j).count)
        simpa using this

/-- Every execution of guarded programs meets the invariant. -/
theorem exec_inv {prog : κ → Prog ob σ α} {s0 : σ} {todo : Nat → List κ}
    (hg : ∀ i, ∀ k ∈ todo i, ∃ b : Prog ob σ α, b.Plain ∧ prog k = b.guarded) {evs : List (Event κ α)} {c : Cfg ob σ κ α}
    (h : Exec prog (start s0 todo) evs c) : ∃ L sq, Inv prog s0 c evs L sq := by
  induction h with
  | nil =>
    refine ⟨[], s0, .nil s0, fun i => .idle rfl (by simp [start]) rfl rfl, fun _ => rfl, hg, ?_⟩
    intro e1 e2 he
    have : e1 = [] := by
      cases e1 with
      | nil => rfl
      | cons => simp at he
    subst this
    exact ⟨[], [], rfl, fun i => ⟨Nat.le_refl 0, Nat.le_refl 0⟩⟩
  | snoc _ hs ih =>
    obtain ⟨L, sq, hi⟩ := ih
    exact inv_step hi hs

theorem Inv.linearizable {prog : κ → Prog ob σ α} {s0 : σ} {c : Cfg ob σ κ α} {evs : List (Event κ α)}
    {L : List (Nat × κ × α)} {sq : σ} (h : Inv prog s0 c evs L sq) :
    Linearizable (fun k => (prog k).alone) s0 evs L := by
  refine ⟨⟨sq, h.legal⟩, fun i => ?_, h.moments⟩
  cases h.th i with
  | idle _ _ h3 h4 =>
    refine ⟨(by rw [h3]; exact List.prefix_refl _), (by rw [h4]; exact List.prefix_refl _), ?_⟩
    have := congrArg List.length h4
    simp at this; omega
  | waiting k b _ _ _ _ h3 h4 =>
    refine ⟨⟨_, h3⟩, (by rw [h4]; exact List.prefix_refl _), ?_⟩
    have := congrArg List.length h4
    simp at this; omega
  | inside b a _ _ _ h3 h4 _ =>
    refine ⟨(by rw [h3]; exact List.prefix_refl _), ⟨_, h4.symm⟩, ?_⟩
    have := congrArg List.length h4
    simp at this; omega
  | leaving a _ _ h3 h4 =>
    refine ⟨(by rw [h3]; exact List.prefix_refl _), ⟨_, h4.symm⟩, ?_⟩
    have := congrArg List.length h4
    simp at this; omega

/-- Only the owner of the mutex is about to access the object. -/
theorem Inv.exclusion {prog : κ → Prog ob σ α} {s0 : σ} {c : Cfg ob σ κ α} {evs : List (Event κ α)}
    {L : List (Nat × κ × α)} {sq : σ} (h : Inv prog s0 c evs L sq) {i : Nat} {ks : List κ} {x : Access ob} {u : σ → σ}
    {n : σ → Prog ob σ α} (hi : c.th i = ⟨ks, some (.act x u n)⟩) : c.owner = some i := by
  cases h.th i with
  | idle h1 => rw [hi] at h1; simp at h1
  | waiting k b' _ _ h1 => rw [hi] at h1; simp [Prog.guarded] at h1
  | leaving a h1 => rw [hi] at h1; simp at h1
  | inside b a hb h1 h2 => exact h2

theorem Inv.no_race {prog : κ → Prog ob σ α} {s0 : σ} {c : Cfg ob σ κ α} {evs : List (Event κ α)}
    {L : List (Nat × κ × α)} {sq : σ} (h : Inv prog s0 c evs L sq) : ¬ Race c := by
  rintro ⟨i, j, ks, ls, x, y, u, v, n, m, hne, hi, hj, -⟩
  have h1 := h.exclusion hi
  have h2 := h.exclusion hj
  rw [h1] at h2
  simp only [Option.some.injEq] at h2
  exact hne h2

theorem Exec.trans {prog : κ → Prog ob σ α} {c1 c2 c3 : Cfg ob σ κ α} {e1 e2 : List (Event κ α)} (h : Exec prog c1 e1 c2)
    (h2 : Exec prog c2 e2 c3) : Exec prog c1 (e1 ++ e2) c3 := by
  induction h2 with
  | nil => rw [List.append_nil]; exact h
  | snoc _ hs ih => rw [← List.append_assoc]; exact .snoc ih hs

/-- A thread runs a part of its program without a break. -/
theorem run {prog : κ → Prog ob σ α} (i : Nat) (ks : List κ) (k : β → Prog ob σ α) : ∀ (p : Prog ob σ β), p.Plain →
    ∀ c : Cfg ob σ κ α, c.th i = ⟨ks, some (p.bind k)⟩ →
    ∃ evs, Exec prog c evs ⟨(p.alone c.st).2, c.owner, Function.update c.th i ⟨ks, some (k (p.alone c.st).1)⟩⟩ ∧
      ∀ e ∈ evs, e = .tau i := by
  intro p
  induction p with
  | ret a =>
    intro _ c hi
    have : Function.update c.th i ⟨ks, some (k a)⟩ = c.th := by
      rw [← (show c.th i = ⟨ks, some (k a)⟩ from hi)]; simp
    refine ⟨[], ?_, by simp⟩
    simp only [Prog.alone]
    rw [this]
    exact .nil
  | act x u n ih =>
    intro hb c hi
    have h1 := Step.act (prog := prog) c i ks x u (fun s => (n s).bind k) hi
    obtain ⟨evs, h2, h3⟩ := ih c.st (hb c.st)
      { c with st := u c.st, th := Function.update c.th i ⟨ks, some ((n c.st).bind k)⟩ } (by simp)
    simp only [Function.update_idem] at h2
    refine ⟨[.tau i] ++ evs, Exec.trans (.snoc .nil h1) h2, ?_⟩
    intro e he
    rcases List.mem_append.mp he with he | he
    · simpa using he
    · exact h3 e he
  | lock p => intro hb; exact hb.elim
  | unlock p => intro hb; exact hb.elim

theorem callsOf_tau {i j : Nat} {evs : List (Event κ α)} (h : ∀ e ∈ evs, e = .tau j) : callsOf i evs = [] := by
  induction evs with
  | nil => rfl
  | cons e evs ih =>
    rw [h e (by simp)]
    exact ih fun e he => h e (List.mem_cons_of_mem _ he)

theorem resultsOf_tau {i j : Nat} {evs : List (Event κ α)} (h : ∀ e ∈ evs, e = .tau j) : resultsOf i evs = [] := by
  induction evs with
  | nil => rfl
  | cons e evs ih =>
    rw [h e (by simp)]
    exact ih fun e he => h e (List.mem_cons_of_mem _ he)

/-- A thread inside can leave, whatever the others do not do. -/
theorem leave {prog : κ → Prog ob σ α} (i : Nat) (ks : List κ) : ∀ (b : Prog ob σ α), b.Plain → ∀ c : Cfg ob σ κ α,
    c.owner = some i → c.th i = ⟨ks, some (b.bind fun a => .unlock (.ret a))⟩ →
    ∃ evs, Exec prog c evs ⟨(b.alone c.st).2, none,
        Function.update c.th i ⟨ks, some (.ret (b.alone c.st).1)⟩⟩ := by
  intro b
  have trans : ∀ {c1 c2 c3 : Cfg ob σ κ α} {e : Event κ α} {evs : List (Event κ α)}, Step prog c1 e c2 → Exec prog c2 evs c3 →
      ∃ evs', Exec prog c1 evs' c3 := by
    intro c1 c2 c3 e evs hs h
    induction h with
    | nil => exact ⟨_, .snoc .nil hs⟩
    | snoc _ hs2 ih =>
      obtain ⟨evs', h'⟩ := ih
      exact ⟨_, .snoc h' hs2⟩
  induction b with
  | ret a =>
    intro _ c ho hi
    exact ⟨_, .snoc .nil (.unlock c i ks (.ret a) hi ho)⟩
  | act x u n ih =>
    intro hb c ho hi
    have h1 := Step.act (prog := prog) c i ks x u (fun s => (n s).bind fun a => .unlock (.ret a)) hi
    obtain ⟨evs, h2⟩ := ih c.st (hb c.st)
      { c with st := u c.st, th := Function.update c.th i ⟨ks, some ((n c.st).bind fun a => .unlock (.ret a))⟩ } ho (by simp)
    simp only [Function.update_idem] at h2
    exact trans h1 h2
  | lock p => intro hb; exact hb.elim
  | unlock p => intro hb; exact hb.elim

/-- When the mutex is free, a thread can make all its calls. -/
theorem drain {prog : κ → Prog ob σ α} (i : Nat) : ∀ ks : List κ, (∀ k ∈ ks, ∃ b : Prog ob σ α, b.Plain ∧ prog k = b.guarded) →
    ∀ c : Cfg ob σ κ α, c.owner = none → c.th i = ⟨ks, none⟩ → ∃ evs c', Exec prog c evs c' ∧ c'.th i = ⟨[], none⟩
  | [], _, c, _, hi => ⟨[], c, .nil, hi⟩
  | k :: ks, hg, c, ho, hi => by
    obtain ⟨b, hb, hk⟩ := hg k (by simp)
    have h1 := Step.call (prog := prog) c i k ks hi
    rw [hk] at h1
    have h2 := Step.lock (prog := prog) { c with th := Function.update c.th i ⟨ks, some b.guarded⟩ } i ks
      (b.bind fun a => .unlock (.ret a)) (by simp [Prog.guarded]) ho
    simp only [Function.update_idem] at h2
    obtain ⟨evs, h3⟩ := leave (prog := prog) i ks b hb
      { c with owner := some i, th := Function.update c.th i ⟨ks, some (b.bind fun a => .unlock (.ret a))⟩ } rfl (by simp)
    simp only [Function.update_idem] at h3
    have h4 := Step.done (prog := prog) ⟨(b.alone c.st).2, none, Function.update c.th i ⟨ks, some (.ret (b.alone c.st).1)⟩⟩ i ks
      (b.alone c.st).1 (by simp)
    simp only [Function.update_idem] at h4
    obtain ⟨evs', c', h5, h6⟩ := drain i ks (fun k hk => hg k (List.mem_cons_of_mem _ hk))
      ⟨(b.alone c.st).2, none, Function.update c.th i ⟨ks, none⟩⟩ rfl (by simp)
    exact ⟨_, c', Exec.trans (.snoc (Exec.trans (.snoc (.snoc .nil h1) h2) h3) h4) h5, h6⟩

/-- From every state that is reached, any thread can make all its calls. -/
theorem finish {prog : κ → Prog ob σ α} {s0 : σ} {todo : Nat → List κ}
    (hg : ∀ i, ∀ k ∈ todo i, ∃ b : Prog ob σ α, b.Plain ∧ prog k = b.guarded) {evs : List (Event κ α)} {c : Cfg ob σ κ α}
    (h : Exec prog (start s0 todo) evs c) (i : Nat) : ∃ evs' c', Exec prog c evs' c' ∧ c'.th i = ⟨[], none⟩ := by
  have hfree : ∃ e1 c1, Exec prog c e1 c1 ∧ c1.owner = none := by
    cases ho : c.owner with
    | none => exact ⟨[], c, .nil, ho⟩
    | some j =>
      obtain ⟨L, sq, hi⟩ := exec_inv hg h
      cases hi.th j with
      | idle _ h1 => exact absurd ho h1
      | waiting _ _ _ _ _ h1 => exact absurd ho h1
      | leaving _ _ h1 => exact absurd ho h1
      | inside b a hb h1 =>
        obtain ⟨e1, h2⟩ := leave (prog := prog) j (c.th j).todo b hb c ho (by rw [← h1])
        exact ⟨e1, _, h2, rfl⟩
  obtain ⟨e1, c1, h1, h2⟩ := hfree
  obtain ⟨L, sq, hi⟩ := exec_inv hg (h.trans h1)
  have hne : c1.owner ≠ some i := by rw [h2]; simp
  have htodo := hi.todo i
  cases hi.th i with
  | idle h3 =>
    obtain ⟨e2, c2, h4, h5⟩ := drain (prog := prog) i (c1.th i).todo htodo c1 h2 (by rw [← h3])
    exact ⟨_, c2, h1.trans h4, h5⟩
  | waiting k b hb hk h3 =>
    have s1 := Step.lock (prog := prog) c1 i (c1.th i).todo (b.bind fun a => .unlock (.ret a))
      (by rw [show Prog.lock (b.bind fun a => .unlock (.ret a)) = b.guarded from rfl, ← h3]) h2
    obtain ⟨e2, s2⟩ := leave (prog := prog) i (c1.th i).todo b hb
      ⟨c1.st, some i, Function.update c1.th i ⟨(c1.th i).todo, some (b.bind fun a => .unlock (.ret a))⟩⟩ rfl (by simp)
    simp only [Function.update_idem] at s2
    have s3 := Step.done (prog := prog)
      ⟨(b.alone c1.st).2, none, Function.update c1.th i ⟨(c1.th i).todo, some (.ret (b.alone c1.st).1)⟩⟩ i (c1.th i).todo
      (b.alone c1.st).1 (by simp)
    simp only [Function.update_idem] at s3
    obtain ⟨e4, c2, h4, h5⟩ := drain (prog := prog) i (c1.th i).todo htodo
      ⟨(b.alone c1.st).2, none, Function.update c1.th i ⟨(c1.th i).todo, none⟩⟩ rfl (by simp)
    exact ⟨_, c2, h1.trans (Exec.trans (.snoc (Exec.trans (.snoc .nil s1) s2) s3) h4), h5⟩
  | leaving a h3 =>
    have s1 := Step.done (prog := prog) c1 i (c1.th i).todo a (by rw [← h3])
    obtain ⟨e2, c2, h4, h5⟩ := drain (prog := prog) i (c1.th i).todo htodo
      { c1 with th := Function.update c1.th i ⟨(c1.th i).todo, none⟩ } h2 (by simp)
    exact ⟨_, c2, h1.trans ((Exec.snoc .nil s1).trans h4), h5⟩
  | inside _ _ _ _ h3 => exact absurd h3 hne

/-- Some thread can always go on, until all have made all their calls. -/
theorem no_deadlock {prog : κ → Prog ob σ α} {s0 : σ} {todo : Nat → List κ}
    (hg : ∀ i, ∀ k ∈ todo i, ∃ b : Prog ob σ α, b.Plain ∧ prog k = b.guarded) {evs : List (Event κ α)} {c : Cfg ob σ κ α}
    (h : Exec prog (start s0 todo) evs c) : Finished c ∨ ∃ e c', Step prog c e c' := by
  by_cases hf : Finished c
  · exact .inl hf
  · right
    obtain ⟨i, hi⟩ := not_forall.mp hf
    obtain ⟨e1, c1, h1, h2⟩ := finish hg h i
    clear h
    have : ∀ {c1 : Cfg ob σ κ α} {e1}, Exec prog c e1 c1 → c1 = c ∨ ∃ e c', Step prog c e c' := by
      intro c1 e1 hx
      induction hx with
      | nil => exact .inl rfl
      | snoc _ hs ih =>
        rcases ih with rfl | ih
        · exact .inr ⟨_, _, hs⟩
        · exact .inr ih
    rcases this h1 with rfl | hx
    · exact absurd h2 hi
    · exact hx

end Abe.Conc
