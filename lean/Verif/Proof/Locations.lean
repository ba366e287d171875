import Verif.Spec.Locations
import Verif.Proof.Scanner
/-!
# The scanner's locations
-/
set_option linter.unusedSimpArgs false
set_option linter.unusedSectionVars false
set_option autoImplicit false
namespace Abe

theorem start_plain : ∀ b : UInt8, isWord b = true → isBlank b = false ∧ b ≠ 10 := forall_uint8 (by decide +kernel)
theorem start_word : ∀ b : UInt8, isStart b = true → isWord b = true := forall_uint8 (by decide +kernel)
theorem digit_plain : ∀ b : UInt8, isDigit b = true → isBlank b = false ∧ b ≠ 10 ∧ isStart b = false := forall_uint8 (by decide +kernel)
theorem cmp_plain : ∀ b : UInt8, isCmp b = true → isBlank b = false ∧ b ≠ 10 ∧ isStart b = false ∧ isDigit b = false :=
  forall_uint8 (by decide +kernel)

theorem mem_takeWhile_imp {p : UInt8 → Bool} {s : Bytes} : ∀ b ∈ s.takeWhile p, p b = true := by
  induction s with
  | nil => simp
  | cons a s ih =>
    intro b hb
    rw [List.takeWhile_cons] at hb
    split at hb
    · rcases List.mem_cons.mp hb with h | h
      · subst h; assumption
      · exact ih b h
    · simp at hb

theorem takeWhile_idem {p : UInt8 → Bool} (s : Bytes) :
    (s.takeWhile p).takeWhile p = s.takeWhile p ∧ (s.takeWhile p).dropWhile p = [] := by
  have h := takeWhile_append_stop (p := p) (w := s.takeWhile p) (rest := []) (List.all_eq_true.mpr mem_takeWhile_imp) (by simp)
  simpa using h

/-- The text of one match of the scanner. -/
theorem match_cases (b : UInt8) (s : Bytes) : ∃ text rest, b :: s = text ++ rest ∧ text ≠ [] ∧
    (b :: s).take (yyMatch 1 0 (0, 0) (b :: s)).2 = text ∧ (b :: s).drop (yyMatch 1 0 (0, 0) (b :: s)).2 = rest ∧
    ((yyAccept.getD (yyMatch 1 0 (0, 0) (b :: s)).1 0 = 4 ∧ text.all isBlank = true) ∨
     (yyAccept.getD (yyMatch 1 0 (0, 0) (b :: s)).1 0 = 5 ∧ text = [10]) ∨
     (yyAccept.getD (yyMatch 1 0 (0, 0) (b :: s)).1 0 ≠ 4 ∧ yyAccept.getD (yyMatch 1 0 (0, 0) (b :: s)).1 0 ≠ 5 ∧
      (∀ x ∈ text, isBlank x = false ∧ x ≠ 10) ∧
      ∃ t, t ≠ .eol ∧ yyAction (yyAccept.getD (yyMatch 1 0 (0, 0) (b :: s)).1 0) text = some t ∧ lex text = [t])) := by
  have hm := yyMatch_first b s
  have hl := yyMatch_len b s
  simp only at hm
  generalize yyMatch 1 0 (0, 0) (b :: s) = m at hm hl
  refine ⟨(b :: s).take m.2, (b :: s).drop m.2, by simp, ?_, rfl, rfl, ?_⟩
  · intro h
    have := congrArg List.length h
    simp at this
    omega
  have tw : ∀ p : UInt8 → Bool, (b :: s).take (1 + (s.takeWhile p).length) = b :: s.takeWhile p := by
    intro p
    rw [Nat.add_comm, List.take_succ_cons]
    congr 1
    exact (List.prefix_iff_eq_take.mp (List.takeWhile_prefix p)).symm
  have e1 := congrArg Prod.fst hm
  have e2 := congrArg Prod.snd hm
  simp only at e1 e2
  rw [e1, e2]
  by_cases c1 : isBlank b = true
  · left
    simp only [c1, if_true, tw]
    refine ⟨trivial, ?_⟩
    simp only [List.all_cons, c1, Bool.true_and]
    exact List.all_eq_true.mpr mem_takeWhile_imp
  · right
    simp only [c1, if_false, Bool.false_eq_true]
    by_cases c2 : b = 10
    · left; subst c2; simp
    · right
      simp only [c2, if_false]
      by_cases c3 : isStart b = true
      · simp only [c3, if_true, tw]
        refine ⟨by decide, by decide, ?_, actLeaf (b :: s.takeWhile isWord), ?_, rfl, ?_⟩
        · intro x hx
          rcases List.mem_cons.mp hx with h | h
          · subst h; exact start_plain _ (start_word _ c3)
          · exact start_plain _ (mem_takeWhile_imp _ h)
        · unfold actLeaf; (repeat' split) <;> simp
        · rw [lex_cons, if_neg c1, if_neg c2, if_pos c3, (takeWhile_idem s).1, (takeWhile_idem s).2]; rfl
      · simp only [c3, if_false, Bool.false_eq_true]
        by_cases c4 : isDigit b = true
        · simp only [c4, if_true, tw]
          refine ⟨by decide, by decide, ?_, actUint (b :: s.takeWhile isDigit), ?_, rfl, ?_⟩
          · intro x hx
            rcases List.mem_cons.mp hx with h | h
            · subst h; exact ⟨(digit_plain _ c4).1, (digit_plain _ c4).2.1⟩
            · have := digit_plain _ (mem_takeWhile_imp _ h)
              exact ⟨this.1, this.2.1⟩
          · unfold actUint; (repeat' split) <;> simp
          · rw [lex_cons, if_neg c1, if_neg c2, if_neg c3, if_pos c4, (takeWhile_idem s).1, (takeWhile_idem s).2]; rfl
        · simp only [c4, if_false, Bool.false_eq_true]
          have plain : lex [b] = [.chr b] := by
            rw [lex_cons, if_neg c1, if_neg c2, if_neg c3, if_neg c4, if_neg (by simp)]; rfl
          have one : ∀ x ∈ [b], isBlank x = false ∧ x ≠ 10 := by
            intro x hx
            simp at hx
            subst hx
            exact ⟨by simpa using c1, c2⟩
          by_cases c5 : isCmp b = true
          · simp only [c5, if_true]
            by_cases c6 : s.head? = some 61
            · simp only [c6, if_true]
              cases s with
              | nil => simp at c6
              | cons y s =>
                have hy : y = 61 := by simpa using c6
                subst hy
                refine ⟨by decide, by decide, ?_, actOp [b, 61], ?_, rfl, ?_⟩
                · intro x hx
                  simp at hx
                  rcases hx with h | h
                  · subst h; exact one _ (by simp)
                  · subst h; decide
                · unfold actOp; (repeat' split) <;> simp
                · show lex [b, 61] = _
                  rw [lex_cons, if_neg c1, if_neg c2, if_neg c3, if_neg c4, if_pos ⟨c5, rfl⟩]; rfl
            · simp only [c6, if_false]
              exact ⟨by decide, by decide, one, .chr b, by simp, rfl, plain⟩
          · simp only [c5, if_false, Bool.false_eq_true]
            exact ⟨by decide, by decide, one, .chr b, by simp, rfl, plain⟩

/-- One match and the tokens behind it. -/
theorem lex_match (b : UInt8) (s : Bytes) {r : Nat} {text rest : Bytes}
    (h1 : yyAccept.getD (yyMatch 1 0 (0, 0) (b :: s)).1 0 = r) (h2 : (b :: s).take (yyMatch 1 0 (0, 0) (b :: s)).2 = text)
    (h3 : (b :: s).drop (yyMatch 1 0 (0, 0) (b :: s)).2 = rest) :
    lex (b :: s) = (yyAction r text).toList ++ lex rest := by
  have hl := yyMatch_len b s
  have hlen : rest.length ≤ s.length := by
    rw [← h3]; simp; omega
  unfold lex
  simp only [List.length_cons, yyLex, h1, h2, h3]
  rw [yyLex_fuel s.length rest.length rest hlen (Nat.le_refl _)]
  cases yyAction r text <;> rfl

/-! ### Places -/

theorem posAt_plain (pre text : Bytes) (h : ∀ x ∈ text, x ≠ 10) :
    posAt (pre ++ text) = ⟨(posAt pre).line, (posAt pre).column + text.length⟩ := by
  have h1 : text.filter (fun b => decide (b = 10)) = [] := by
    rw [List.filter_eq_nil_iff]; intro x hx; simpa using h x hx
  have h2 : (text.reverse ++ pre.reverse).takeWhile (fun b => decide (b ≠ 10)) =
      text.reverse ++ pre.reverse.takeWhile (fun b => decide (b ≠ 10)) := by
    rw [List.takeWhile_append_of_pos]
    intro x hx
    simpa using h x (by simpa using hx)
  simp only [posAt, List.filter_append, List.length_append, h1, List.reverse_append, h2, List.length_nil, List.length_reverse]
  congr 1
  omega

theorem posAt_newline (pre : Bytes) : posAt (pre ++ [10]) = ⟨(posAt pre).line + 1, 1⟩ := by
  simp [posAt, List.filter_append]
  omega

theorem posAt_bounds (pre : Bytes) : 1 ≤ (posAt pre).line ∧ (posAt pre).line ≤ 1 + pre.length ∧
    1 ≤ (posAt pre).column ∧ (posAt pre).column ≤ 1 + pre.length := by
  have h1 := List.length_filter_le (fun b : UInt8 => decide (b = 10)) pre
  have h2 : (pre.reverse.takeWhile fun b => decide (b ≠ 10)).length ≤ pre.length := by
    have := (List.takeWhile_prefix (p := fun b : UInt8 => decide (b ≠ 10)) (l := pre.reverse)).length_le
    simpa using this
  simp only [posAt]
  omega

theorem addCounter_ok {l r : Int} (h1 : 1 ≤ l + r) (h2 : l + r ≤ 2147483647) : addCounter l r = .ok (l + r) := by
  unfold addCounter
  rw [if_neg (by omega), if_neg (by omega)]

theorem columns_plain {pre text : Bytes} {l : Loc} (hl : l.stop = posAt pre) (h : ∀ x ∈ text, x ≠ 10)
    (hb : pre.length + text.length < 2147483647) :
    l.columns text.length = .ok ⟨l.start, posAt (pre ++ text)⟩ := by
  have := posAt_bounds pre
  unfold Loc.columns Pos.columns
  rw [hl, addCounter_ok (by omega) (by omega), posAt_plain pre text h]
  rfl

/-- The scanner returns the tokens with their places. -/
theorem yyLexL_spec : ∀ (n : Nat) (s pre0 : Bytes), s.length ≤ n → pre0.length + s.length < 2147483647 →
    ∃ ts, yyLexL n ⟨posAt pre0, posAt pre0⟩ s = .ok (ts, ⟨posAt (pre0 ++ s), posAt (pre0 ++ s)⟩) ∧ ts.map Prod.fst = lex s ∧
      ∀ i t l, ts[i]? = some (t, l) → ∃ pre text, TokenAt s i t pre text ∧ l = placeOf (pre0 ++ pre) t text
  | 0, s, pre0, h, _ => by
    have : s = [] := List.length_eq_zero_iff.mp (by omega)
    subst this
    exact ⟨[], by simp [yyLexL], rfl, by simp⟩
  | n + 1, [], pre0, _, _ => ⟨[], by simp [yyLexL], rfl, by simp⟩
  | n + 1, b :: s, pre0, hn, hb => by
    obtain ⟨text, rest, hsplit, hne, htake, hdrop, hc⟩ := match_cases b s
    have hlex := lex_match b s rfl htake hdrop
    have hpos : 0 < text.length := List.length_pos_iff.mpr hne
    have hlen : (b :: s).length = text.length + rest.length := by rw [hsplit]; simp
    rw [hlen] at hn hb
    simp only [yyLexL, htake, hdrop]
    -- the rest of the text
    obtain ⟨ts, e1, e2, e3⟩ := yyLexL_spec n rest (pre0 ++ text) (by omega) (by simp; omega)
    rw [List.append_assoc, ← hsplit] at e1
    rcases hc with ⟨hr, hbl⟩ | ⟨hr, htx⟩ | ⟨hr4, hr5, hpl, t, hte, hta, htl⟩
    · have h10 : ∀ x ∈ text, x ≠ 10 := by
        intro x hx h
        have := List.all_eq_true.mp hbl x hx
        subst h
        simp [isBlank] at this
      rw [hr] at hlex
      rw [columns_plain rfl h10 (by omega), hr]
      simp only [Res.ok_bind, actLoc, Loc.step, yyAction, e1]
      refine ⟨ts, rfl, by rw [e2, hlex]; simp [yyAction], ?_⟩
      intro i t l hi
      obtain ⟨pre, tx, ⟨⟨post, p1, p2, p3⟩, htok, htg⟩, hl⟩ := e3 i t l hi
      refine ⟨text ++ pre, tx, ⟨⟨post, ?_, p2, ?_⟩, htok, htg⟩, by simpa using hl⟩
      · rw [hsplit, p1]; simp
      · rw [p3, hlex]; simp [yyAction]
    · subst htx
      rw [hr] at hlex
      have hbd := posAt_bounds pre0
      simp only [List.length_cons, List.length_nil] at hb
      have hcol : Loc.columns ⟨posAt pre0, posAt pre0⟩ (([10] : Bytes).length : Int) =
          .ok ⟨posAt pre0, ⟨(posAt pre0).line, (posAt pre0).column + 1⟩⟩ := by
        unfold Loc.columns Pos.columns
        simp only [List.length_cons, List.length_nil]
        rw [addCounter_ok (by simp; omega) (by simp; omega)]; rfl
      have hlin : Loc.lines ⟨posAt pre0, ⟨(posAt pre0).line, (posAt pre0).column + 1⟩⟩ (([10] : Bytes).length : Int) =
          .ok ⟨posAt pre0, posAt (pre0 ++ [10])⟩ := by
        unfold Loc.lines Pos.lines
        simp only [List.length_cons, List.length_nil]
        rw [if_pos (by simp), addCounter_ok (by simp; omega) (by simp; omega), posAt_newline]; rfl
      rw [hcol, hr]
      simp only [Res.ok_bind, actLoc, hlin, Loc.step, yyAction, e1]
      refine ⟨_, rfl, by simp [e2, hlex, yyAction], ?_⟩
      intro i t l hi
      cases i with
      | zero =>
        simp only [List.getElem?_cons_zero, Option.some.injEq, Prod.mk.injEq] at hi
        obtain ⟨rfl, rfl⟩ := hi
        refine ⟨[], [10], ⟨⟨rest, by rw [hsplit]; simp, ?_, ?_⟩, rfl, by decide⟩, by simp [placeOf]⟩
        · rw [← hsplit, hlex]; rfl
        · rw [hlex]; rfl
      | succ i =>
        simp only [List.getElem?_cons_succ] at hi
        obtain ⟨pre, tx, ⟨⟨post, p1, p2, p3⟩, htok, htg⟩, hl⟩ := e3 i t l hi
        refine ⟨[10] ++ pre, tx, ⟨⟨post, ?_, p2, ?_⟩, htok, htg⟩, by simpa using hl⟩
        · rw [hsplit, p1]; simp
        · rw [p3, hlex]; rfl
    · rw [columns_plain rfl (fun x hx => (hpl x hx).2) (by omega)]
      rw [hta] at hlex
      have hact : ∀ l, actLoc (yyAccept.getD (yyMatch 1 0 (0, 0) (b :: s)).1 0) text.length l = .ok l := by
        intro l
        generalize yyAccept.getD (yyMatch 1 0 (0, 0) (b :: s)).1 0 = r at hr4 hr5
        unfold actLoc
        split
        · exact absurd rfl hr4
        · exact absurd rfl hr5
        · rfl
      simp only [Res.ok_bind, hact, hta, Loc.step, e1]
      refine ⟨_, rfl, by simp [e2, hlex], ?_⟩
      intro i t' l hi
      cases i with
      | zero =>
        simp only [List.getElem?_cons_zero, Option.some.injEq, Prod.mk.injEq] at hi
        obtain ⟨rfl, rfl⟩ := hi
        refine ⟨[], text, ⟨⟨rest, by rw [hsplit]; simp, ?_, ?_⟩, htl, fun x hx => (hpl x hx).1⟩, by simp [placeOf, hte]⟩
        · rw [← hsplit, hlex]; rfl
        · rw [hlex]; rfl
      | succ i =>
        simp only [List.getElem?_cons_succ] at hi
        obtain ⟨pre, tx, ⟨⟨post, p1, p2, p3⟩, htok, htg⟩, hl⟩ := e3 i t' l hi
        refine ⟨text ++ pre, tx, ⟨⟨post, ?_, p2, ?_⟩, htok, htg⟩, by simpa using hl⟩
        · rw [hsplit, p1]; simp
        · rw [p3, hlex]; rfl

theorem lexL_spec {s : Bytes} (h : s.length < 2147483647) :
    ∃ ts, lexL s = .ok (ts, ⟨posAt s, posAt s⟩) ∧ ts.map Prod.fst = lex s ∧
      ∀ i t l, ts[i]? = some (t, l) → ∃ pre text, TokenAt s i t pre text ∧ l = placeOf pre t text := by
  have := yyLexL_spec s.length s [] (Nat.le_refl _) (by simpa using h)
  have e : Loc.step {} = ⟨posAt [], posAt []⟩ := rfl
  unfold lexL
  rw [e]
  simpa using this

end Abe
