import Verif.Proof.AttrList
import Verif.Proof.Labels
/-! # Lexing concatenated texts -/
set_option linter.unusedSimpArgs false
set_option linter.unusedSectionVars false
set_option autoImplicit false
namespace Abe
variable {mk : Mktime}

theorem takeWhile_append_bad {p : UInt8 → Bool} {c : UInt8} (hc : p c = false) (r : Bytes) : ∀ s : Bytes,
    (s ++ c :: r).takeWhile p = s.takeWhile p ∧ (s ++ c :: r).dropWhile p = s.dropWhile p ++ c :: r
  | [] => by simp [hc]
  | b :: s => by
    have := takeWhile_append_bad hc r s
    cases hb : p b <;> simp [hb, this.1, this.2]

/-- A byte that cannot continue a token separates. -/
theorem lex_append_stop {c : UInt8} (hw : isWord c = false) (hd : isDigit c = false) (h61 : c ≠ 61) (r : Bytes) :
    ∀ (n : Nat) (s : Bytes), s.length ≤ n → lex (s ++ c :: r) = lex s ++ lex (c :: r)
  | _, [], _ => by simp [lex_nil]
  | 0, b :: s, h => by simp at h
  | n + 1, b :: s, h => by
    have hs : s.length ≤ n := by simpa using h
    have dl : ∀ p : UInt8 → Bool, (s.dropWhile p).length ≤ n := fun p =>
      Nat.le_trans (List.dropWhile_suffix (p := p) (l := s)).length_le hs
    by_cases hb : isBlank b = true
    · rw [List.cons_append, lex_blank hb, lex_blank hb, lex_append_stop hw hd h61 r n s hs]
    · have hcw := takeWhile_append_bad hw r s
      have hcd := takeWhile_append_bad hd r s
      rw [List.cons_append, lex_cons, lex_cons, hcw.1, hcw.2, hcd.1, hcd.2]
      simp only [hb, if_false, Bool.false_eq_true]
      by_cases h10 : b = 10
      · simp only [h10, if_true, List.cons_append, lex_append_stop hw hd h61 r n s hs]
      · simp only [h10, if_false]
        by_cases hst : isStart b = true
        · simp only [hst, if_true, List.cons_append, lex_append_stop hw hd h61 r n _ (dl _)]
        · simp only [hst, if_false, Bool.false_eq_true]
          by_cases hdg : isDigit b = true
          · simp only [hdg, if_true, List.cons_append, lex_append_stop hw hd h61 r n _ (dl _)]
          · simp only [hdg, if_false, Bool.false_eq_true]
            cases s with
            | nil => simp [lex_nil, h61, hb, h10, hst, hdg]
            | cons x s =>
              have e : (x :: s ++ c :: r).head? = (x :: s).head? := rfl
              rw [e]
              by_cases hc : isCmp b = true ∧ (x :: s).head? = some 61
              · rw [if_pos hc, if_pos hc]
                simp only [List.cons_append, List.tail_cons]
                rw [lex_append_stop hw hd h61 r n s (by simp at hs; omega)]
              · rw [if_neg hc, if_neg hc, lex_append_stop hw hd h61 r n (x :: s) hs]
                rfl

theorem lex_stop {c : UInt8} (hw : isWord c = false) (hd : isDigit c = false) (h61 : c ≠ 61) (s r : Bytes) :
    lex (s ++ c :: r) = lex s ++ lex (c :: r) := lex_append_stop hw hd h61 r s.length s (Nat.le_refl _)

theorem lex_stop_space (s r : Bytes) : lex (s ++ 32 :: r) = lex s ++ lex r := by
  rw [lex_stop (by decide) (by decide) (by decide), lex_blank (by decide)]

theorem lex_open (s : Bytes) : lex (40 :: s) = .chr 40 :: lex s := by
  rw [lex_cons]; simp [isBlank, isStart, isDigit, isCmp]
theorem lex_close (s : Bytes) : lex (41 :: s) = .chr 41 :: lex s := by
  rw [lex_cons]; simp [isBlank, isStart, isDigit, isCmp]
theorem lex_bar (s : Bytes) : lex (124 :: s) = .chr 124 :: lex s := by
  rw [lex_cons]; simp [isBlank, isStart, isDigit, isCmp]
theorem lex_hash (s : Bytes) : lex (35 :: s) = .chr 35 :: lex s := by
  rw [lex_cons]; simp [isBlank, isStart, isDigit, isCmp]
theorem lex_comma (s : Bytes) : lex (44 :: s) = .chr 44 :: lex s := by
  rw [lex_cons]; simp [isBlank, isStart, isDigit, isCmp]
theorem lex_nul (s : Bytes) : lex (0 :: s) = .chr 0 :: lex s := by
  rw [lex_cons]; simp [isBlank, isStart, isDigit, isCmp]
theorem lex_equals {s : Bytes} (h : s.head? ≠ some 61) : lex (61 :: s) = .chr 61 :: lex s := by
  rw [lex_cons]; simp [isBlank, isStart, isDigit, isCmp, h]

theorem lex_stop_close (s r : Bytes) : lex (s ++ 41 :: r) = lex s ++ .chr 41 :: lex r := by
  rw [lex_stop (by decide) (by decide) (by decide), lex_close]
theorem lex_stop_bar (s r : Bytes) : lex (s ++ 124 :: r) = lex s ++ .chr 124 :: lex r := by
  rw [lex_stop (by decide) (by decide) (by decide), lex_bar]
theorem lex_stop_nul (s r : Bytes) : lex (s ++ 0 :: r) = lex s ++ .chr 0 :: lex r := by
  rw [lex_stop (by decide) (by decide) (by decide), lex_nul]

theorem lex_and (r : Bytes) : lex (b!"and " ++ r) = .and :: lex r := by
  have : b!"and " ++ r = b!"and" ++ 32 :: r := rfl
  rw [this, lex_stop_space]; rfl
theorem lex_or (r : Bytes) : lex (b!"or " ++ r) = .or :: lex r := by
  have : b!"or " ++ r = b!"or" ++ 32 :: r := rfl
  rw [this, lex_stop_space]; rfl

/-- A name followed by something that cannot continue it. -/
theorem lex_name {s : Bytes} (h : isName s = true) (rest : Bytes)
    (hr : ∀ c, rest.head? = some c → isWord c = false) : lex (s ++ rest) = .leaf s :: lex rest := by
  cases s with
  | nil => cases h
  | cons b w =>
    have h' := h
    simp only [isName, Bool.and_eq_true, Bool.not_eq_true'] at h'
    rw [lex_word h'.1.1 h'.1.2 hr, actLeaf_name h'.2]

theorem lex_name' {s : Bytes} (h : isName s = true) : lex s = [.leaf s] := by
  have := lex_name h [] (by simp)
  simpa [lex_nil] using this

/-! ### Numbers -/

theorem decVal_eq (s : Bytes) : decVal s = digitsVal s := rfl

theorem isDigit_ofNat : ∀ k, k < 10 → isDigit (UInt8.ofNat (48 + k)) = true := by decide +kernel

theorem decAux_digits : ∀ fuel n, (decAux fuel n).all isDigit = true
  | 0, _ => rfl
  | fuel + 1, n => by
    simp only [decAux]
    split
    · rename_i h; simp only [List.all_cons, isDigit_ofNat n h, List.all_nil, Bool.and_true]
    · simp only [List.all_append, decAux_digits fuel, List.all_cons, isDigit_ofNat (n % 10) (by omega), List.all_nil, Bool.and_true]

theorem natDec_ne_nil (n : Nat) : natDec n ≠ [] := by
  unfold natDec
  simp only [decAux]
  split <;> simp

theorem lex_natDec {n : UInt32} (h1 : 1 ≤ n.toNat) (h2 : n.toNat < 2 ^ 32 - 1) (rest : Bytes)
    (hr : ∀ c, rest.head? = some c → isDigit c = false) : lex (natDec n.toNat ++ rest) = .uint n :: lex rest := by
  have hall : (natDec n.toNat).all isDigit = true := decAux_digits _ _
  have hval : decVal (natDec n.toNat) = n.toNat := digitsVal_natDec _
  cases hd : natDec n.toNat with
  | nil => exact absurd hd (natDec_ne_nil _)
  | cons b w =>
    rw [hd] at hall hval
    simp only [List.all_cons, Bool.and_eq_true] at hall
    rw [lex_digits hall.1 hall.2 hr]
    unfold actUint
    rw [hval, if_pos (by omega), if_neg (by omega)]
    simp

/-! ### Spaced texts -/

theorem lex_tok {t : Tok} (h1 : TokOk t) (h2 : t.sign = true) (r : Bytes) : lex (t.text ++ 32 :: r) = t :: lex r := by
  cases t with
  | leaf s => rw [Tok.text, lex_name h1 _ (by simp; decide), lex_blank (by decide)]
  | uint n => rw [Tok.text, lex_natDec h1.1 h1.2 _ (by simp; decide), lex_blank (by decide)]
  | or => rw [lex_stop_space]; rfl
  | and => rw [lex_stop_space]; rfl
  | eq => rw [lex_stop_space]; rfl
  | leq => rw [lex_stop_space]; rfl
  | geq => rw [lex_stop_space]; rfl
  | inn => rw [lex_stop_space]; rfl
  | startPolicy => rw [lex_stop_space]; rfl
  | startAttr => rw [lex_stop_space]; rfl
  | eol => rw [lex_stop_space]; rfl
  | error => cases h2
  | chr b =>
    rw [lex_stop_space]
    simp only [Tok.sign, List.mem_cons, List.not_mem_nil, or_false, decide_eq_true_eq] at h2
    rcases h2 with rfl | rfl | rfl | rfl | rfl | rfl | rfl | rfl | rfl | rfl | rfl <;> rfl

theorem lex_spaced : ∀ ts : List Tok, (∀ t ∈ ts, TokOk t) → (∀ t ∈ ts, t.sign = true) → lex (spaced ts) = ts
  | [], _, _ => rfl
  | t :: ts, h1, h2 => by
    have ih := lex_spaced ts (fun t h => h1 t (by simp [h])) (fun t h => h2 t (by simp [h]))
    have e : spaced (t :: ts) = t.text ++ 32 :: spaced ts := by simp [spaced]
    rw [e, lex_tok (h1 t (by simp)) (h2 t (by simp)), ih]

theorem sign_list : (∀ s, (Tok.leaf s).sign = true) ∧ (∀ n, (Tok.uint n).sign = true) ∧ Tok.or.sign = true ∧
    Tok.and.sign = true ∧ Tok.eq.sign = true ∧ Tok.leq.sign = true ∧ Tok.geq.sign = true ∧ Tok.inn.sign = true ∧
    (Tok.chr 35).sign = true ∧ (Tok.chr 40).sign = true ∧ (Tok.chr 41).sign = true ∧ (Tok.chr 44).sign = true ∧
    (Tok.chr 45).sign = true ∧ (Tok.chr 60).sign = true ∧ (Tok.chr 61).sign = true ∧ (Tok.chr 62).sign = true ∧
    (Tok.chr 123).sign = true ∧ (Tok.chr 124).sign = true ∧ (Tok.chr 125).sign = true :=
  ⟨fun _ => rfl, fun _ => rfl, rfl, rfl, rfl, rfl, rfl, rfl, rfl, rfl, rfl, rfl, rfl, rfl, rfl, rfl, rfl, rfl, rfl⟩

theorem NumSyn.signs (n : NumSyn) : n.toks.all Tok.sign = true := by
  cases n <;> simp [NumSyn.toks, sign_list]

theorem CmpOp.signs (op : CmpOp) : op.tok.sign = true ∧ op.dateTok.sign = true := by
  cases op <;> exact ⟨rfl, rfl⟩

theorem CondSyn.signs (c : CondSyn) : c.toks.all Tok.sign = true := by
  cases c <;> simp only [CondSyn.toks, List.all_cons, List.all_append, List.all_nil, sign_list, NumSyn.signs, CmpOp.signs,
    Bool.and_true]

theorem Expr.signs : ∀ e : Expr, e.toks.all Tok.sign = true
  | .leaf s => rfl
  | .cond c => c.signs
  | .paren e => by simp only [Expr.toks, List.all_cons, List.all_append, List.all_nil, sign_list, e.signs, Bool.and_true]
  | .or l r => by simp only [Expr.toks, List.all_cons, List.all_append, sign_list, l.signs, r.signs, Bool.and_true]
  | .and l r => by simp only [Expr.toks, List.all_cons, List.all_append, sign_list, l.signs, r.signs, Bool.and_true]

theorem Item.signs (i : Item) : i.toks.all Tok.sign = true := by
  cases i <;> simp only [Item.toks, List.all_cons, List.all_append, List.all_nil, sign_list, NumSyn.signs, Bool.and_true]

theorem AExpr.signs : ∀ a : AExpr, a.toks.all Tok.sign = true
  | .item i => i.signs
  | .pre a => by simp only [AExpr.toks, List.all_cons, sign_list, a.signs, Bool.and_true]
  | .post a => by simp only [AExpr.toks, List.all_cons, List.all_append, List.all_nil, sign_list, a.signs, Bool.and_true]
  | .cat a b => by simp only [AExpr.toks, List.all_cons, List.all_append, sign_list, a.signs, b.signs, Bool.and_true]

theorem Expr.sign (e : Expr) : ∀ t ∈ e.toks, t.sign = true := List.all_eq_true.mp e.signs
theorem AExpr.sign (a : AExpr) : ∀ t ∈ a.toks, t.sign = true := List.all_eq_true.mp a.signs

end Abe
