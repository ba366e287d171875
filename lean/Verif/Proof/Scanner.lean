import Verif.Spec.Text
import Verif.Proof.Bytes
/-!
# The scanner tables do what the regular expressions say

`lex` unfolds one token at a time by character class.
-/
set_option linter.unusedSimpArgs false
set_option linter.unusedSectionVars false
set_option autoImplicit false
namespace Abe

theorem cls_blank : ∀ b : UInt8, cls b = 2 ↔ isBlank b = true := forall_uint8 (by decide +kernel)
theorem cls_nl : ∀ b : UInt8, cls b = 3 ↔ b = 10 := forall_uint8 (by decide +kernel)
theorem cls_digit : ∀ b : UInt8, cls b = 6 ↔ isDigit b = true := forall_uint8 (by decide +kernel)
theorem cls_start : ∀ b : UInt8, cls b = 5 ↔ isStart b = true := forall_uint8 (by decide +kernel)
theorem cls_word : ∀ b : UInt8, (cls b = 4 ∨ cls b = 5 ∨ cls b = 6) ↔ isWord b = true :=
  forall_uint8 (by decide +kernel)
theorem cls_cmp : ∀ b : UInt8, (cls b = 7 ∨ cls b = 8) ↔ isCmp b = true := forall_uint8 (by decide +kernel)
theorem cls_eq : ∀ b : UInt8, cls b = 8 ↔ b = 61 := forall_uint8 (by decide +kernel)

/-- Transitions of the loop states, for every byte. -/
theorem trans_blank : ∀ b : UInt8, yyTrans 4 5 (cls b) = (if isBlank b then 10 else 14) ∧
    yyTrans 4 10 (cls b) = (if isBlank b then 10 else 14) := forall_uint8 (by decide +kernel)
theorem trans_digit : ∀ b : UInt8, yyTrans 4 8 (cls b) = (if isDigit b then 12 else 14) ∧
    yyTrans 4 12 (cls b) = (if isDigit b then 12 else 14) := forall_uint8 (by decide +kernel)
theorem trans_word : ∀ b : UInt8, yyTrans 4 7 (cls b) = (if isWord b then 11 else 14) ∧
    yyTrans 4 11 (cls b) = (if isWord b then 11 else 14) := forall_uint8 (by decide +kernel)
theorem trans_cmp : ∀ b : UInt8, yyTrans 4 9 (cls b) = (if b = 61 then 13 else 14) :=
  forall_uint8 (by decide +kernel)
theorem trans_dead : ∀ b : UInt8, yyTrans 4 4 (cls b) = 14 ∧ yyTrans 4 6 (cls b) = 14 ∧
    yyTrans 4 13 (cls b) = 14 := forall_uint8 (by decide +kernel)
theorem trans_first : ∀ b : UInt8, yyTrans 4 1 (cls b) =
    (if isBlank b then 5 else if b = 10 then 6 else if isStart b then 7 else if isDigit b then 8
      else if isCmp b then 9 else 4) := forall_uint8 (by decide +kernel)

/-- A state that reads a class of bytes and stays in an accepting loop. -/
theorem yyMatch_loop {q q' : Nat} {p : UInt8 → Bool} (hq : yyAccept.getD q 0 ≠ 0)
    (hq' : yyAccept.getD q' 0 ≠ 0) (h14 : q' ≠ 14)
    (h : ∀ b, yyTrans 4 q (cls b) = if p b then q' else 14)
    (h' : ∀ b, yyTrans 4 q' (cls b) = if p b then q' else 14) :
    ∀ (s : Bytes) (pos : Nat) (last : Nat × Nat),
      yyMatch q pos last s = (if s.takeWhile p = [] then q else q', pos + (s.takeWhile p).length) := by
  have aux : ∀ (s : Bytes) (pos : Nat) (last : Nat × Nat),
      yyMatch q' pos last s = (q', pos + (s.takeWhile p).length) := by
    intro s
    induction s with
    | nil => intro pos last; simp only [yyMatch, if_pos hq']; simp
    | cons b s ih =>
      intro pos last
      simp only [yyMatch, h' b, if_pos hq']
      cases hb : p b with
      | true => simp [hb, h14, ih, List.takeWhile_cons]; omega
      | false => simp [hb, List.takeWhile_cons]
  intro s pos last
  cases s with
  | nil => simp only [yyMatch, if_pos hq]; simp
  | cons b s =>
    simp only [yyMatch, h b, if_pos hq]
    cases hb : p b with
    | true => simp [hb, h14, aux, List.takeWhile_cons]; omega
    | false => simp [hb, List.takeWhile_cons]

theorem yyMatch_dead {q : Nat} (hq : yyAccept.getD q 0 ≠ 0) (h : ∀ b, yyTrans 4 q (cls b) = 14)
    (s : Bytes) (pos : Nat) (last : Nat × Nat) : yyMatch q pos last s = (q, pos) := by
  cases s with
  | nil => simp only [yyMatch, if_pos hq]
  | cons b s => simp only [yyMatch, if_pos hq, h b, if_true]

/-- One match from the start state. -/
theorem yyMatch_first (b : UInt8) (s : Bytes) :
    let m := yyMatch 1 0 (0, 0) (b :: s)
    (yyAccept.getD m.1 0, m.2) =
      if isBlank b then (4, 1 + (s.takeWhile isBlank).length)
      else if b = 10 then (5, 1)
      else if isStart b then (2, 1 + (s.takeWhile isWord).length)
      else if isDigit b then (1, 1 + (s.takeWhile isDigit).length)
      else if isCmp b then (if s.head? = some 61 then (3, 2) else (6, 1))
      else (6, 1) := by
  have h1 : yyMatch 1 0 (0, 0) (b :: s) = yyMatch (yyTrans 4 1 (cls b)) 1 (0, 0) s := by
    have hne : yyTrans 4 1 (cls b) ≠ 14 := by
      rw [trans_first]; repeat' (first | decide | split)
    have ha : yyAccept.getD 1 0 = 0 := by decide
    simp only [yyMatch, ha, hne, ne_eq, not_true_eq_false, if_false, Nat.zero_add]
  simp only [h1, trans_first]
  by_cases c1 : isBlank b = true
  · simp only [c1, if_true]
    rw [yyMatch_loop (by decide) (by decide) (by decide) (fun b => (trans_blank b).1)
      (fun b => (trans_blank b).2)]
    split <;> rfl
  · simp only [c1, if_false, Bool.false_eq_true]
    by_cases c2 : b = 10
    · simp only [c2, if_true]
      rw [yyMatch_dead (by decide) (fun b => (trans_dead b).2.1)]; rfl
    · simp only [c2, if_false, Bool.false_eq_true]
      by_cases c3 : isStart b = true
      · simp only [c3, if_true]
        rw [yyMatch_loop (by decide) (by decide) (by decide) (fun b => (trans_word b).1)
          (fun b => (trans_word b).2)]
        split <;> rfl
      · simp only [c3, if_false, Bool.false_eq_true]
        by_cases c4 : isDigit b = true
        · simp only [c4, if_true]
          rw [yyMatch_loop (by decide) (by decide) (by decide) (fun b => (trans_digit b).1)
            (fun b => (trans_digit b).2)]
          split <;> rfl
        · simp only [c4, if_false, Bool.false_eq_true]
          by_cases c5 : isCmp b = true
          · simp only [c5, if_true]
            cases s with
            | nil => rfl
            | cons x s =>
              have ha : yyAccept.getD 9 0 ≠ 0 := by decide
              simp only [yyMatch, if_pos ha, trans_cmp, List.head?_cons, Option.some.injEq]
              by_cases hx : x = 61
              · simp only [hx, if_true]
                rw [if_neg (by decide), yyMatch_dead (by decide) (fun b => (trans_dead b).2.2)]; rfl
              · simp only [hx, if_false, if_true]; rfl
          · simp only [c5, if_false, Bool.false_eq_true]
            rw [yyMatch_dead (by decide) (fun b => (trans_dead b).1)]; rfl

theorem yyMatch_len (b : UInt8) (s : Bytes) :
    1 ≤ (yyMatch 1 0 (0, 0) (b :: s)).2 := by
  have h := congrArg Prod.snd (yyMatch_first b s)
  simp only at h
  rw [h]
  repeat' (first | (simp; done) | split)

theorem yyLex_fuel : ∀ (n m : Nat) (s : Bytes), s.length ≤ n → s.length ≤ m → yyLex n s = yyLex m s
  | 0, 0, _, _, _ => rfl
  | 0, m + 1, s, h, _ => by
    have : s = [] := List.length_eq_zero_iff.mp (by omega)
    subst this; rfl
  | n + 1, 0, s, _, h => by
    have : s = [] := List.length_eq_zero_iff.mp (by omega)
    subst this; rfl
  | n + 1, m + 1, [], _, _ => rfl
  | n + 1, m + 1, b :: s, h1, h2 => by
    have hl := yyMatch_len b s
    simp only [yyLex]
    rw [yyLex_fuel n m _ (by simp at *; omega) (by simp at *; omega)]

/-- `lex` one match at a time. -/
theorem lex_cons (b : UInt8) (s : Bytes) : lex (b :: s) =
    if isBlank b then lex (s.dropWhile isBlank)
    else if b = 10 then .eol :: lex s
    else if isStart b then actLeaf (b :: s.takeWhile isWord) :: lex (s.dropWhile isWord)
    else if isDigit b then actUint (b :: s.takeWhile isDigit) :: lex (s.dropWhile isDigit)
    else if isCmp b ∧ s.head? = some 61 then actOp [b, 61] :: lex s.tail
    else .chr b :: lex s := by
  have hm := yyMatch_first b s
  have hl := yyMatch_len b s
  simp only at hm
  generalize hmm : yyMatch 1 0 (0, 0) (b :: s) = m at hm hl
  have tw : ∀ p : UInt8 → Bool, (b :: s).take (1 + (s.takeWhile p).length) = b :: s.takeWhile p := by
    intro p
    rw [Nat.add_comm, List.take_succ_cons]
    congr 1
    exact (List.prefix_iff_eq_take.mp (List.takeWhile_prefix p)).symm
  have dw : ∀ p : UInt8 → Bool, (b :: s).drop (1 + (s.takeWhile p).length) = s.dropWhile p := by
    intro p
    rw [Nat.add_comm, List.drop_succ_cons]
    have h := List.takeWhile_append_dropWhile (p := p) (l := s)
    generalize hA : s.takeWhile p = A at h ⊢
    generalize s.dropWhile p = B at h ⊢
    subst h
    simp
  have key : ∀ (r l : Nat) (t : Option Tok), (yyAccept.getD m.1 0, m.2) = (r, l) →
      yyAction r ((b :: s).take l) = t →
      lex (b :: s) = match t with | none => lex ((b :: s).drop l) | some t => t :: lex ((b :: s).drop l) := by
    intro r l t h1 h2
    have e1 : yyAccept.getD m.1 0 = r := congrArg Prod.fst h1
    have e2 : m.2 = l := congrArg Prod.snd h1
    have hf : yyLex s.length ((b :: s).drop l) = lex ((b :: s).drop l) :=
      yyLex_fuel _ _ _ (by simp; omega) (Nat.le_refl _)
    unfold lex
    simp only [List.length_cons, yyLex, hmm, e1, e2, h2]
    rw [hf]
    cases t <;> rfl
  by_cases c1 : isBlank b = true
  · simp only [c1, if_true] at hm ⊢
    rw [key _ _ none hm (by rfl)]; simp only [dw]
  · simp only [c1, if_false, Bool.false_eq_true] at hm ⊢
    by_cases c2 : b = 10
    · simp only [c2, if_true] at hm ⊢
      rw [← c2, key _ _ (some .eol) hm (by rfl)]; simp
    · simp only [c2, if_false, Bool.false_eq_true] at hm ⊢
      by_cases c3 : isStart b = true
      · simp only [c3, if_true] at hm ⊢
        rw [key _ _ (some (actLeaf (b :: s.takeWhile isWord))) hm (by rw [tw]; rfl)]; simp only [dw]
      · simp only [c3, if_false, Bool.false_eq_true] at hm ⊢
        by_cases c4 : isDigit b = true
        · simp only [c4, if_true] at hm ⊢
          rw [key _ _ (some (actUint (b :: s.takeWhile isDigit))) hm (by rw [tw]; rfl)]; simp only [dw]
        · simp only [c4, if_false, Bool.false_eq_true] at hm ⊢
          by_cases c5 : isCmp b = true
          · simp only [c5, if_true, true_and] at hm ⊢
            by_cases c6 : s.head? = some 61
            · simp only [c6, if_true] at hm ⊢
              cases s with
              | nil => simp at c6
              | cons x s =>
                have : x = 61 := by simpa using c6
                subst this
                rw [key _ _ (some (actOp [b, 61])) hm (by simp [yyAction])]
                simp
            · simp only [c6, if_false] at hm ⊢
              rw [key _ _ (some (.chr b)) hm (by simp [yyAction])]; simp
          · simp only [c5, if_false, false_and, Bool.false_eq_true] at hm ⊢
            rw [key _ _ (some (.chr b)) hm (by simp [yyAction])]; simp

@[simp] theorem lex_nil : lex [] = [] := rfl

theorem lex_dropBlank : ∀ s : Bytes, lex (s.dropWhile isBlank) = lex s
  | [] => rfl
  | b :: s => by
    cases hb : isBlank b with
    | true => rw [lex_cons]; simp [hb]
    | false => simp [hb]

/-- Blanks produce no token. -/
theorem lex_blank {b : UInt8} (h : isBlank b = true) (s : Bytes) : lex (b :: s) = lex s := by
  rw [lex_cons, if_pos h, lex_dropBlank]

theorem takeWhile_append_stop {p : UInt8 → Bool} : ∀ {w rest : Bytes}, w.all p = true →
    (∀ c, rest.head? = some c → p c = false) → (w ++ rest).takeWhile p = w ∧ (w ++ rest).dropWhile p = rest
  | [], [], _, _ => by simp
  | [], c :: r, _, h => by simp [h c rfl]
  | b :: w, rest, hw, h => by
    simp only [List.all_cons, Bool.and_eq_true] at hw
    have := takeWhile_append_stop hw.2 h
    simp [hw.1, this]

theorem start_notBlank : ∀ b : UInt8, isStart b = true → isBlank b = false := forall_uint8 (by decide +kernel)
theorem digit_not : ∀ b : UInt8, isDigit b = true → isBlank b = false ∧ isStart b = false :=
  forall_uint8 (by decide +kernel)

/-- A word followed by something that is not part of a word. -/
theorem lex_word {b : UInt8} {w rest : Bytes} (hb : isStart b = true) (hw : w.all isWord = true)
    (hr : ∀ c, rest.head? = some c → isWord c = false) :
    lex (b :: w ++ rest) = actLeaf (b :: w) :: lex rest := by
  have h1 : isBlank b = false := by
    exact start_notBlank b hb
  have h2 : b ≠ 10 := by
    intro h; subst h; revert hb; decide
  obtain ⟨t, d⟩ := takeWhile_append_stop hw hr
  rw [List.cons_append, lex_cons, t, d]
  simp [h1, h2, hb]

/-- Digits followed by something that is not a digit. -/
theorem lex_digits {b : UInt8} {w rest : Bytes} (hb : isDigit b = true) (hw : w.all isDigit = true)
    (hr : ∀ c, rest.head? = some c → isDigit c = false) :
    lex (b :: w ++ rest) = actUint (b :: w) :: lex rest := by
  have h1 : isBlank b = false ∧ isStart b = false := by
    exact digit_not b hb
  have h2 : b ≠ 10 := by
    intro h; subst h; revert hb; decide
  obtain ⟨t, d⟩ := takeWhile_append_stop hw hr
  rw [List.cons_append, lex_cons, t, d]
  simp [h1, h2, hb]

theorem actLeaf_name {s : Bytes} (h : isReserved s = false) : actLeaf s = .leaf s := by
  simp only [isReserved, Bool.or_eq_false_iff, decide_eq_false_iff_not] at h
  obtain ⟨⟨⟨⟨⟨⟨⟨⟨h1, h2⟩, h3⟩, h4⟩, h5⟩, h6⟩, h7⟩, h8⟩, h9⟩ := h
  simp [actLeaf, h1, h2, h3, h4, h5, h6, h7, h8, h9]

theorem tokOk_actLeaf {b : UInt8} {w : Bytes} (hb : isStart b = true) (hw : w.all isWord = true) :
    TokOk (actLeaf (b :: w)) := by
  by_cases h : isReserved (b :: w) = true
  · unfold actLeaf
    split; · trivial
    split; · trivial
    split; · trivial
    split; · trivial
    split; · trivial
    split; · trivial
    rename_i n1 n2 n3 n4 n5 n6
    simp only [isReserved, Bool.or_eq_true, decide_eq_true_eq] at h
    simp only [not_or] at n3 n4 n5
    rcases h with (((((((h | h) | h) | h) | h) | h) | h) | h) | h
    · exact absurd h n1
    · exact absurd h n2
    · exact absurd h n3.1
    · exact absurd h n3.2
    · exact absurd h n4.1
    · exact absurd h n4.2
    · exact absurd h n5.1
    · exact absurd h n5.2
    · exact absurd h n6
  · have h : isReserved (b :: w) = false := by simpa using h
    rw [actLeaf_name h]
    simp [TokOk, isName, hb, hw, h]

theorem tokOk_actUint (s : Bytes) : TokOk (actUint s) := by
  unfold actUint
  split
  · split
    · trivial
    · simp only [TokOk, UInt32.toNat_ofNat']
      omega
  · trivial

theorem tokOk_lex : ∀ (n : Nat) (s : Bytes), s.length ≤ n → ∀ t ∈ lex s, TokOk t
  | _, [], _ => by simp
  | 0, b :: s, h => by simp at h
  | n + 1, b :: s, h => by
    have dl : ∀ p : UInt8 → Bool, (s.dropWhile p).length ≤ n := fun p => by
      have := (List.dropWhile_suffix (p := p) (l := s)).length_le
      simp at h; omega
    have hs : s.length ≤ n := by simpa using h
    have tw : ∀ p : UInt8 → Bool, (s.takeWhile p).all p = true := fun p => by
      simp
    rw [lex_cons]
    split
    · exact tokOk_lex n _ (dl _)
    split
    · intro t ht
      rcases List.mem_cons.mp ht with rfl | ht
      · trivial
      · exact tokOk_lex n _ hs t ht
    split
    · rename_i hb
      intro t ht
      rcases List.mem_cons.mp ht with rfl | ht
      · exact tokOk_actLeaf hb (tw _)
      · exact tokOk_lex n _ (dl _) t ht
    split
    · intro t ht
      rcases List.mem_cons.mp ht with rfl | ht
      · exact tokOk_actUint _
      · exact tokOk_lex n _ (dl _) t ht
    split
    · intro t ht
      rcases List.mem_cons.mp ht with rfl | ht
      · unfold actOp; repeat' (first | trivial | split)
      · exact tokOk_lex n _ (by simp; omega) t ht
    · intro t ht
      rcases List.mem_cons.mp ht with rfl | ht
      · trivial
      · exact tokOk_lex n _ hs t ht

theorem tokOk_of_lex {s : Bytes} {t : Tok} (h : t ∈ lex s) : TokOk t := tokOk_lex s.length s (Nat.le_refl _) t h

theorem lex_prefix_policy (s : Bytes) : lex (b!"[0]: " ++ s) = .startPolicy :: lex s := by
  have h : b!"[0]: " ++ s = 91 :: b!"0]:" ++ (32 :: s) := rfl
  rw [h, lex_word (by decide) (by decide) (by simp; decide), lex_blank (by decide)]
  rfl

theorem lex_prefix_attr (s : Bytes) : lex (b!"[1]: " ++ s) = .startAttr :: lex s := by
  have h : b!"[1]: " ++ s = 91 :: b!"1]:" ++ (32 :: s) := rfl
  rw [h, lex_word (by decide) (by decide) (by simp; decide), lex_blank (by decide)]
  rfl

end Abe
