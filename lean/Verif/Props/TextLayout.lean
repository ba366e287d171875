import Verif.Props.PolicyEdits
import Verif.Spec.TextLayout
/-!
# C157: which differences between two texts do not matter

Policies and attribute lists are read from the tokens before the first NUL or byte above 127. Two texts with the same
tokens there give the same policy and the same list.
-/
set_option linter.unusedSimpArgs false
set_option linter.unusedSectionVars false
set_option autoImplicit false
namespace Abe
open Edit
variable {mk : Mktime}

theorem policy_tokens {s s' : Bytes} (h : effective (lex s) = effective (lex s')) {p : Policy}
    (hp : createPolicyTree mk s = .ok (some p)) : createPolicyTree mk s' = .ok (some { p with compact := s' }) := by
  obtain ⟨e, t, d', hv, hc, he, hev, rfl⟩ := accepted_eval hp
  have hin := e.eval_input (mk := mk) s' { input := s }
  rw [hev] at hin
  exact policy_of_eval hc hv (h ▸ he) hin

theorem list_tokens {s s' : Bytes} (h : effective (lex s) = effective (lex s')) {al : AttrList}
    (hp : createAttributeList mk s = .ok (some al)) : ∃ al', createAttributeList mk s' = .ok (some al') ∧
    al'.attrs = al.attrs ∧ al'.orig = al.orig := by
  obtain ⟨a, hv, hc, he⟩ := accepted_list hp
  obtain ⟨al1, h1, h2, h3, _⟩ := createAttributeList_ok mk hc hv he
  obtain ⟨al2, k1, k2, k3, _⟩ := createAttributeList_ok mk hc hv (h ▸ he)
  rw [hp] at h1
  cases h1
  exact ⟨al2, k1, by rw [k2, h2], by rw [k3, h3]⟩

/-- **Only the tokens matter.** Texts with the same tokens before the first one that ends the input read alike. -/
theorem C157_tokens (s s' : Bytes) (h : effective (lex s) = effective (lex s')) : ReadAlike mk s s' :=
  ⟨fun _ => policy_tokens h, fun _ => policy_tokens h.symm, fun _ => list_tokens h, fun _ => list_tokens h.symm⟩

/-- **What follows a NUL or a byte above 127 does not matter**, whatever the text before it and behind it. -/
theorem C157_stop (s r : Bytes) (c : UInt8) (hc : ¬ (c ≠ 0 ∧ c < 128)) : ReadAlike mk (s ++ c :: r) s := by
  refine C157_tokens _ _ ?_
  have hd := dirty_byte c hc
  have h1 : lex (c :: r) = .chr c :: lex r := by rw [lex_cons]; simp [hd]
  rw [lex_stop hd.1 hd.2.1 hd.2.2.1, h1]
  have e : lex s ++ Tok.chr c :: lex r = (lex s ++ [Tok.chr c]) ++ lex r := by simp
  rw [e, effective_stays _ ⟨.chr c, by simp, hd.2.2.2.2.2.2.1⟩]
  by_cases hs : ∃ t ∈ lex s, t.sym = 0
  · exact effective_stays _ hs
  · push Not at hs
    rw [effective_go hs, effective_self hs]
    have : effective [Tok.chr c] = [] := by simp [effective, hd.2.2.2.2.2.2.1]
    rw [this, List.append_nil]

example : ¬ ((200 : UInt8) ≠ 0 ∧ (200 : UInt8) < 128) ∧ ¬ ((0 : UInt8) ≠ 0 ∧ (0 : UInt8) < 128) := by decide

theorem blank_of {b : UInt8} (h : b = 32 ∨ b = 9 ∨ b = 13) : isBlank b = true ∧ isWord b = false ∧ isDigit b = false ∧ b ≠ 61 := by
  rcases h with rfl | rfl | rfl <;> decide

theorem lex_blanks : ∀ {w : Bytes} (_ : Blanks w) (r : Bytes), lex (w ++ r) = lex r
  | [], _, _ => rfl
  | b :: w, h, r => by
    rw [List.cons_append, lex_blank (blank_of (h b (List.mem_cons_self ..))).1]
    exact lex_blanks (fun c hc => h c (List.mem_cons_of_mem _ hc)) r

theorem lex_blanks_mid (s : Bytes) {b : UInt8} {w : Bytes} (h : Blanks (b :: w)) (r : Bytes) :
    lex (s ++ (b :: w ++ r)) = lex s ++ lex r := by
  have hb := blank_of (h b (List.mem_cons_self ..))
  rw [List.cons_append, lex_stop hb.2.1 hb.2.2.1 hb.2.2.2, ← List.cons_append, lex_blanks h]

/-- **Blanks before and behind** do not matter. -/
theorem C157_outer_blanks (s w w' : Bytes) (h : Blanks w) (h' : Blanks w') : ReadAlike mk (w ++ (s ++ w')) s := by
  refine C157_tokens _ _ ?_
  rw [lex_blanks h]
  cases w' with
  | nil => rw [List.append_nil]
  | cons b w' =>
    have := lex_blanks_mid s h' []
    rw [List.append_nil, lex_nil, List.append_nil] at this
    rw [this]

/-- **The number and kind of blanks** at one place does not matter, as long as there is one in both texts. -/
theorem C157_inner_blanks (s r w w' : Bytes) (h : Blanks w) (h' : Blanks w') (hw : w ≠ []) (hw' : w' ≠ []) :
    ReadAlike mk (s ++ (w ++ r)) (s ++ (w' ++ r)) := by
  refine C157_tokens _ _ ?_
  obtain ⟨b, w, rfl⟩ := List.exists_cons_of_ne_nil hw
  obtain ⟨b', w', rfl⟩ := List.exists_cons_of_ne_nil hw'
  rw [lex_blanks_mid s h r, lex_blanks_mid s h' r]

/-- **Next to a parenthesis, a bar, a comma and so on** blanks may also be left out: before any byte that is not part of
a name or a number and not `=`. -/
theorem C157_blanks_before (s r w : Bytes) (c : UInt8) (h : Blanks w) (hc : isWord c = false) (hd : isDigit c = false) (he : c ≠ 61) :
    ReadAlike mk (s ++ (w ++ c :: r)) (s ++ c :: r) := by
  refine C157_tokens _ _ ?_
  rw [lex_stop hc hd he]
  cases w with
  | nil => rw [List.nil_append, lex_stop hc hd he]
  | cons b w => rw [lex_blanks_mid s h]

/-- Behind a parenthesis or a bar. -/
theorem C157_blanks_behind (s r w : Bytes) (c : UInt8) (h : Blanks w) (hc : c = 40 ∨ c = 41 ∨ c = 124) :
    ReadAlike mk (s ++ c :: (w ++ r)) (s ++ c :: r) := by
  refine C157_tokens _ _ ?_
  have hx : isWord c = false ∧ isDigit c = false ∧ c ≠ 61 ∧ (∀ x, lex (c :: x) = .chr c :: lex x) := by
    rcases hc with rfl | rfl | rfl
    · exact ⟨by decide, by decide, by decide, lex_open⟩
    · exact ⟨by decide, by decide, by decide, lex_close⟩
    · exact ⟨by decide, by decide, by decide, lex_bar⟩
  rw [lex_stop hx.1 hx.2.1 hx.2.2.1, lex_stop hx.1 hx.2.1 hx.2.2.1, hx.2.2.2, hx.2.2.2, lex_blanks h]

example : Blanks b!" \t " ∧ isWord 40 = false ∧ isDigit 40 = false := ⟨by unfold Blanks; decide, by decide, by decide⟩

/-- **But not everywhere.** Without the blank between them two names are one; a new policy, accepted or not. And the two
bytes of a comparison must not be separated. -/
theorem C157_needed : effective (lex b!"a or b") ≠ effective (lex b!"a orb") ∧
    effective (lex b!"a <= 5") ≠ effective (lex b!"a < = 5") ∧ effective (lex b!"a 1") ≠ effective (lex b!"a1") := by
  decide +kernel

/-- **A line end is a token:** it matters wherever it is. A text with one is no policy and no list. -/
theorem C157_line_end (s r : Bytes) (hs : CleanText s) :
    (¬ ∃ p, createPolicyTree mk (s ++ 10 :: r) = .ok (some p)) ∧ ¬ ∃ al, createAttributeList mk (s ++ 10 :: r) = .ok (some al) := by
  have hl : lex (s ++ 10 :: r) = lex s ++ .eol :: lex r := by
    rw [lex_stop (by decide) (by decide) (by decide), lex_cons]
    simp [isBlank]
  have hm : Tok.eol ∈ effective (lex (s ++ 10 :: r)) := by
    have hn : ∀ t ∈ lex s ++ [Tok.eol], t.sym ≠ 0 := by
      intro t ht
      rcases List.mem_append.mp ht with h | h
      · exact lex_sym_ne s.length s (Nat.le_refl _) hs t h
      · simp only [List.mem_singleton] at h; subst h; decide
    rw [hl, show lex s ++ Tok.eol :: lex r = (lex s ++ [Tok.eol]) ++ lex r by simp, effective_go hn]
    simp
  constructor
  · rintro ⟨p, h⟩
    obtain ⟨e, _, _, he⟩ := accepted h
    rw [he] at hm
    exact noEol e hm
  · rintro ⟨al, h⟩
    obtain ⟨a, _, _, he⟩ := accepted_list h
    rw [he] at hm
    exact noEolA a hm
where
  num (n : NumSyn) : Tok.eol ∉ n.toks := by cases n <;> simp [NumSyn.toks]
  cond (c : CondSyn) : Tok.eol ∉ c.toks := by
    cases c with
    | cmp op s n => cases op <;> simp [CondSyn.toks, CmpOp.tok, num]
    | date op s m d y => cases op <;> simp [CondSyn.toks, CmpOp.dateTok, CmpOp.tok, num]
    | _ => simp [CondSyn.toks, num]
  noEol : ∀ e : Expr, Tok.eol ∉ e.toks
    | .leaf _ => by simp [Expr.toks]
    | .cond c => by simp [Expr.toks, cond]
    | .paren e => by simp [Expr.toks, noEol e]
    | .or l r => by simp [Expr.toks, noEol l, noEol r]
    | .and l r => by simp [Expr.toks, noEol l, noEol r]
  noEolA : ∀ a : AExpr, Tok.eol ∉ a.toks
    | .item i => by cases i <;> simp [AExpr.toks, Item.toks, num]
    | .pre a => by simp [AExpr.toks, noEolA a]
    | .post a => by simp [AExpr.toks, noEolA a]
    | .cat a b => by simp [AExpr.toks, noEolA a, noEolA b]

end Abe
