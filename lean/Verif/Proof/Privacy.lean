import Verif.Proof.Recon
import Mathlib.Data.Fintype.Card
import Mathlib.Data.Fintype.Pi
import Mathlib.Tactic.LinearCombination
/-! Unsatisfied attribute sets learn nothing: the shares they see can be explained by any secret. -/
set_option linter.unusedSimpArgs false
set_option linter.unusedSectionVars false
set_option autoImplicit false
namespace Abe
variable {F : Type} [Field F] [DecidableEq F]

/-! ### Polynomials as coefficient lists -/

/-- Horner evaluation. -/
def ev (x : F) : List F → F
  | [] => 0
  | c :: cs => c + x * ev x cs

theorem evalLoop_eq (x : F) : ∀ (cs : List F) i acc, evalLoop x cs i acc = acc + x ^ i * ev x cs
  | [], i, acc => by simp [evalLoop, ev]
  | c :: cs, i, acc => by
    simp only [evalLoop, evalLoop_eq x cs, ev]; ring

theorem evaluatePolynomial_eq (q : List F) (x : Nat) : evaluatePolynomial q x = ev (x : F) q := by
  simp [evaluatePolynomial, evalLoop_eq]

theorem ev_zipWith (x : F) : ∀ (a b : List F), a.length = b.length →
    ev x (List.zipWith (· + ·) a b) = ev x a + ev x b
  | [], [], _ => by simp [ev]
  | a :: as, b :: bs, h => by
    simp only [List.zipWith_cons_cons, ev, ev_zipWith x as bs (by simpa using h)]; ring
  | [], _ :: _, h => by simp at h
  | _ :: _, [], h => by simp at h

theorem ev_append_zero (x : F) : ∀ (a : List F) n, ev x (a ++ List.replicate n 0) = ev x a
  | [], 0 => rfl
  | [], n + 1 => by
    have := ev_append_zero x [] n
    simp only [List.nil_append] at this
    simp [List.replicate_succ, ev, this]
  | a :: as, n => by simp [ev, ev_append_zero x as n]

/-- Multiply by `1 - a X`. -/
def mulLin (a : F) (prev : F) : List F → List F
  | [] => [-a * prev]
  | c :: cs => (c - a * prev) :: mulLin a c cs

theorem ev_mulLin (x a : F) : ∀ (q : List F) prev,
    ev x (mulLin a prev q) = (1 - a * x) * ev x q - a * prev
  | [], prev => by simp [mulLin, ev]
  | c :: cs, prev => by simp only [mulLin, ev, ev_mulLin x a cs]; ring

theorem length_mulLin (a : F) : ∀ (q : List F) prev, (mulLin a prev q).length = q.length + 1
  | [], _ => rfl
  | c :: cs, _ => by simp [mulLin, length_mulLin a cs]

/-- A polynomial with the given value at zero that vanishes at the chosen points. -/
theorem exists_poly (d : F) : ∀ (bs : List Bool) (i : Nat),
    (∀ k, 0 < k → k ≤ i + bs.length → (k : F) ≠ 0) →
    ∃ rest : List F, rest.length = bs.count true ∧
      ∀ k, bs[k]? = some true → ev ((i + k + 1 : Nat) : F) (d :: rest) = 0
  | [], _, _ => ⟨[], rfl, by simp⟩
  | false :: bs, i, h => by
    obtain ⟨rest, h1, h2⟩ := exists_poly d bs (i + 1) (fun k hk hle => h k hk (by simp; omega))
    refine ⟨rest, by simp [h1], ?_⟩
    intro k hk
    cases k with
    | zero => simp at hk
    | succ k =>
      have := h2 k (by simpa using hk)
      rwa [show i + (k + 1) + 1 = i + 1 + k + 1 by omega]
  | true :: bs, i, h => by
    obtain ⟨rest, h1, h2⟩ := exists_poly d bs (i + 1) (fun k hk hle => h k hk (by simp; omega))
    have hi : ((i + 1 : Nat) : F) ≠ 0 := h (i + 1) (by omega) (by simp)
    refine ⟨mulLin (((i + 1 : Nat) : F)⁻¹) d rest, by simp [length_mulLin, h1], ?_⟩
    have e : ∀ x : F, ev x (d :: mulLin (((i + 1 : Nat) : F)⁻¹) d rest)
        = (1 - ((i + 1 : Nat) : F)⁻¹ * x) * ev x (d :: rest) := by
      intro x
      simp only [ev, ev_mulLin]; ring
    intro k hk
    rw [e]
    cases k with
    | zero =>
      rw [Nat.add_zero, inv_mul_cancel₀ hi]; simp
    | succ k =>
      have := h2 k (by simpa using hk)
      rw [show i + (k + 1) + 1 = i + 1 + k + 1 by omega, this, mul_zero]

/-! ### Linearity -/

theorem emit_add_aux (a b : List (Leaf × F)) (c e : List (Leaf × F)) (h : a.length = b.length) :
    List.zipWith (fun p q : Leaf × F => (p.1, p.2 + q.2)) (a ++ c) (b ++ e) =
      List.zipWith (fun p q : Leaf × F => (p.1, p.2 + q.2)) a b ++
      List.zipWith (fun p q : Leaf × F => (p.1, p.2 + q.2)) c e := List.zipWith_append h

theorem drawCoeffs_add (tape δ : Nat → F) (pos n : Nat) (s d : F) :
    (drawCoeffs (fun i => tape i + δ i) pos n).set 0 (s + d) =
      List.zipWith (· + ·) ((drawCoeffs tape pos n).set 0 s) ((drawCoeffs δ pos n).set 0 d) := by
  apply List.ext_getElem
  · simp [drawCoeffs]
  · intro i h1 h2
    simp only [List.getElem_set, List.getElem_zipWith, drawCoeffs, List.getElem_map,
      List.getElem_range]
    split <;> simp

theorem emitL_add (tape δ : Nat → F) (q r : List F) (hqr : q.length = r.length) : ∀ l : List TNode,
    (∀ c ∈ l, ∀ s d pos, emit (fun i => tape i + δ i) c (s + d) pos =
      List.zipWith (fun p q => (p.1, p.2 + q.2)) (emit tape c s pos) (emit δ c d pos)) →
    ∀ i pos, emitL (fun i => tape i + δ i) (List.zipWith (· + ·) q r) l i pos =
      List.zipWith (fun p q => (p.1, p.2 + q.2)) (emitL tape q l i pos) (emitL δ r l i pos)
  | [], _, _, _ => rfl
  | c :: cs, h, i, pos => by
    simp only [emitL]
    rw [emitL_add tape δ q r hqr cs (fun d hd => h d (by simp [hd])), evaluatePolynomial_eq,
      ev_zipWith _ _ _ hqr, ← evaluatePolynomial_eq, ← evaluatePolynomial_eq, h c (by simp)]
    rw [emit_add_aux]
    have h1 := emitL_fst tape q cs (fun c _ s pos => emit_fst tape c s pos) (i + 1) pos
    have h2 := emitL_fst δ r cs (fun c _ s pos => emit_fst δ c s pos) (i + 1) pos
    have := congrArg List.length (h1.trans h2.symm)
    simpa using this

theorem emit_add (tape δ : Nat → F) : ∀ (t : TNode) s d pos,
    emit (fun i => tape i + δ i) t (s + d) pos =
      List.zipWith (fun p q => (p.1, p.2 + q.2)) (emit tape t s pos) (emit δ t d pos) := by
  apply TNode.ind
  · intros; rfl
  · intro fl ty thr subs ih s d pos
    simp only [emit]
    rw [drawCoeffs_add]
    exact emitL_add tape δ _ _ (by simp [drawCoeffs]) subs ih _ _

/-! ### The tape used by a tree -/

theorem emitL_congr (q : List F) : ∀ l : List TNode,
    (∀ c ∈ l, ∀ (tape tape' : Nat → F) s pos,
      (∀ i, pos ≤ i → i < pos + draws c → tape i = tape' i) → emit tape c s pos = emit tape' c s pos) →
    ∀ (tape tape' : Nat → F) i pos,
      (∀ i, pos ≤ i → i < pos + drawsL l → tape i = tape' i) →
      emitL tape q l i pos = emitL tape' q l i pos
  | [], _, _, _, _, _, _ => rfl
  | c :: cs, h, tape, tape', i, pos, ht => by
    simp only [emitL, drawsL] at ht ⊢
    rw [emitL_congr q cs (fun d hd => h d (by simp [hd])) tape tape' _ _
        (fun i h1 h2 => ht i h1 (by omega)),
      h c (by simp) tape tape' _ _ (fun i h1 h2 => ht i (by omega) (by omega))]

theorem emit_congr : ∀ (t : TNode) (tape tape' : Nat → F) s pos,
    (∀ i, pos ≤ i → i < pos + draws t → tape i = tape' i) → emit tape t s pos = emit tape' t s pos := by
  apply TNode.ind
  · intros; rfl
  · intro fl ty thr subs ih tape tape' s pos h
    simp only [emit, draws] at h ⊢
    have e : drawCoeffs tape pos (thresholdValue ty thr subs.length)
        = drawCoeffs tape' pos (thresholdValue ty thr subs.length) := by
      unfold drawCoeffs
      apply List.map_congr_left
      intro i hi
      rw [List.mem_range] at hi
      exact h _ (by omega) (by omega)
    rw [e]
    exact emitL_congr _ subs ih tape tape' _ _ (fun i h1 h2 => h i (by omega) (by omega))

/-! ### Explaining the view with another secret -/

theorem emitL_zero (q : List F) : ∀ l : List TNode,
    (∀ c ∈ l, ∀ pos, ∀ p ∈ emit (fun _ => (0 : F)) c 0 pos, p.2 = 0) →
    ∀ i pos, (∀ k, evaluatePolynomial q k = 0) →
      ∀ p ∈ emitL (fun _ => (0 : F)) q l i pos, p.2 = 0
  | [], _, _, _, _, p, hp => by simp [emitL] at hp
  | c :: cs, h, i, pos, hq, p, hp => by
    simp only [emitL, List.mem_append] at hp
    rcases hp with hp | hp
    · exact emitL_zero q cs (fun d hd => h d (by simp [hd])) _ _ hq p hp
    · rw [hq] at hp; exact h c (by simp) _ p hp

theorem emit_zero : ∀ (t : TNode) pos, ∀ p ∈ emit (fun _ => (0 : F)) t 0 pos, p.2 = 0 := by
  apply TNode.ind
  · intro fl pre lab idx pos p hp; simp [emit] at hp; simp [hp]
  · intro fl ty thr subs ih pos p hp
    simp only [emit] at hp
    refine emitL_zero _ subs ih _ _ ?_ p hp
    intro k
    rw [evaluatePolynomial_eq]
    have : (drawCoeffs (fun _ => (0 : F)) pos (thresholdValue ty thr subs.length)).set 0 0
        = List.replicate (thresholdValue ty thr subs.length) 0 := by
      apply List.ext_getElem
      · simp [drawCoeffs]
      · intro i _ _
        simp only [List.getElem_set, drawCoeffs, List.getElem_map, List.getElem_replicate]
        split <;> rfl
    rw [this]
    have := ev_append_zero (k : F) [] (thresholdValue ty thr subs.length)
    simpa [ev] using this

theorem emitL_hide (A : List Bytes) (q : List F) : ∀ l : List TNode,
    (∀ c ∈ l, sat A c = false → ∀ (d : F) pos, ∃ δ : Nat → F,
      ∀ p ∈ emit δ c d pos, p.1.label ∈ A → p.2 = 0) →
    ∀ i pos, (∀ k, (l.map (sat A))[k]? = some true → evaluatePolynomial q (i + k + 1) = 0) →
    ∃ δ : Nat → F, ∀ p ∈ emitL δ q l i pos, p.1.label ∈ A → p.2 = 0
  | [], _, _, _, _ => ⟨fun _ => 0, by simp [emitL]⟩
  | c :: cs, h, i, pos, hq => by
    obtain ⟨δ₁, h₁⟩ := emitL_hide A q cs (fun d hd => h d (by simp [hd])) (i + 1) pos (by
      intro k hk
      have := hq (k + 1) (by simpa using hk)
      rwa [show i + (k + 1) + 1 = i + 1 + k + 1 by omega] at this)
    obtain ⟨δ₂, h₂⟩ : ∃ δ : Nat → F, ∀ p ∈ emit δ c (evaluatePolynomial q (i + 1))
        (pos + drawsL cs), p.1.label ∈ A → p.2 = 0 := by
      by_cases hs : sat A c = true
      · refine ⟨fun _ => 0, fun p hp _ => ?_⟩
        rw [show evaluatePolynomial q (i + 1) = 0 from hq 0 (by simp [hs])] at hp
        exact emit_zero c _ p hp
      · exact h c (by simp) (by simpa using hs) _ _
    refine ⟨fun x => if x < pos + drawsL cs then δ₁ x else δ₂ x, ?_⟩
    intro p hp
    simp only [emitL, List.mem_append] at hp
    rcases hp with hp | hp
    · apply h₁ p
      rw [emitL_congr q cs (fun c _ => emit_congr c) _ δ₁] at hp
      · exact hp
      · intro x _ hx; simp [hx]
    · apply h₂ p
      rw [emit_congr c _ δ₂] at hp
      · exact hp
      · intro x hx _; simp [Nat.not_lt.mpr hx]

theorem sat_count (A : List Bytes) (fl : Flags) (ty : Gate) (thr : Nat) (subs : List TNode)
    (h : sat A (.gate fl ty thr subs) = false) (h0 : thresholdValue ty thr subs.length ≠ 0) :
    (subs.map (sat A)).count true < thresholdValue ty thr subs.length := by
  cases ty with
  | and =>
    simp only [sat, satL_eq] at h
    have hlt : (subs.map (sat A)).count true < (subs.map (sat A)).length := by
      rw [List.all_eq_false] at h
      obtain ⟨b, hb, hb'⟩ := h
      refine lt_of_le_of_ne List.count_le_length ?_
      intro he
      rw [List.count_eq_length] at he
      have := he b hb
      subst this; simp at hb'
    simpa [thresholdValue] using hlt
  | or =>
    simp only [sat, satL_eq, List.any_eq_false] at h
    have : (subs.map (sat A)).count true = 0 := by
      rw [List.count_eq_zero]
      intro hm
      have := h true hm
      simp at this
    rw [this]; simp [thresholdValue]
  | threshold =>
    simp only [sat, satL_eq, decide_eq_false_iff_not, not_le] at h
    simpa [thresholdValue] using h
  | other => simp [thresholdValue] at h0

theorem length_lt_size (fl : Flags) (ty : Gate) (thr : Nat) (subs : List TNode) :
    subs.length < (TNode.gate fl ty thr subs).size := by
  have h1 : ∀ t : TNode, 1 ≤ t.size := by
    intro t; cases t <;> simp [TNode.size]
  have h2 : ∀ l : List TNode, l.length ≤ sizeL l := by
    intro l
    induction l with
    | nil => simp
    | cons c cs ih => have := h1 c; simp only [List.length_cons, sizeL]; omega
  have := h2 subs
  simp only [TNode.size]; omega

theorem size_le_of_mem {c : TNode} : ∀ {l : List TNode}, c ∈ l → c.size ≤ sizeL l
  | d :: ds, h => by
    rcases List.mem_cons.mp h with rfl | h
    · simp [sizeL]
    · have := size_le_of_mem h; simp only [sizeL]; omega

theorem emit_hide (A : List Bytes) : ∀ (t : TNode),
    (∀ k, 0 < k → k ≤ t.size → (k : F) ≠ 0) → PosGates t → sat A t = false →
    ∀ (d : F) pos, ∃ δ : Nat → F, ∀ p ∈ emit δ t d pos, p.1.label ∈ A → p.2 = 0 := by
  apply TNode.ind
  · intro fl pre lab idx _ _ hs d pos
    refine ⟨fun _ => 0, ?_⟩
    intro p hp hA
    simp only [emit, List.mem_singleton] at hp
    subst hp
    simp only [sat, decide_eq_false_iff_not] at hs
    exact absurd hA hs
  · intro fl ty thr subs ih hchar hp hs d pos
    obtain ⟨h0, hps⟩ := hp
    rw [PosGatesL_iff] at hps
    have hlt := sat_count A fl ty thr subs hs h0
    have hlen := length_lt_size fl ty thr subs
    obtain ⟨rest, hr1, hr2⟩ := exists_poly d (subs.map (sat A)) 0
      (fun k hk hle => hchar k hk (by simp at hle; omega))
    set n := thresholdValue ty thr subs.length with hn
    have hq : (d :: rest ++ List.replicate (n - 1 - rest.length) 0).length = n := by
      simp; omega
    set q := d :: rest ++ List.replicate (n - 1 - rest.length) (0 : F) with hqd
    obtain ⟨δ, hδ⟩ := emitL_hide A q subs
      (fun c hc hsc d pos => ih c hc (fun k hk hle => hchar k hk (by
        have := size_le_of_mem hc; simp only [TNode.size]; omega)) (hps c hc) hsc d pos) 0 (pos + n)
      (by
        intro k hk
        rw [evaluatePolynomial_eq, hqd, ev_append_zero]
        exact hr2 k hk)
    refine ⟨fun x => if x < pos + n then q.getD (x - pos) 0 else δ x, ?_⟩
    intro p hp
    simp only [emit] at hp
    rw [← hn] at hp
    have hco : (drawCoeffs (fun x => if x < pos + n then q.getD (x - pos) 0 else δ x) pos n).set 0 d
        = q := by
      apply List.ext_getElem
      · simp only [List.length_set, drawCoeffs, List.length_map, List.length_range, hq]
      · intro i h1 h2
        have hin : i < n := by omega
        simp only [List.getElem_set, drawCoeffs, List.getElem_map, List.getElem_range,
          Nat.add_lt_add_iff_left, hin, if_true, Nat.add_sub_cancel_left, List.getD_eq_getElem?_getD,
          List.getElem?_eq_getElem h2, Option.getD_some]
        split
        · rename_i h; subst h; simp [hqd]
        · rfl
    rw [hco, emitL_congr q subs (fun c _ => emit_congr c) _ δ] at hp
    · exact hδ p hp
    · intro x hx _; simp [Nat.not_lt.mpr hx]

end Abe
