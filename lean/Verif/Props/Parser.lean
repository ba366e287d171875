import Verif.Proof.ParsedFacts
import Verif.Props.LSSS
/-!
# Policy and attribute-list texts (C01, C02, C07, C13–C18, C27–C29, C74–C76 at the level of texts)

`mk` is the C library's `mktime`, arbitrary in every theorem.
-/
set_option linter.unusedSimpArgs false
set_option linter.unusedSectionVars false
set_option autoImplicit false
namespace Abe
variable {mk : Mktime}

/-! ### Concrete texts used in examples -/
namespace TextEx

/-- `a and b or c` -/
def e1 : Expr := .or (.and (.leaf b!"a") (.leaf b!"b")) (.leaf b!"c")
/-- `a < 7 and (b or dept:x)` -/
def e2 : Expr := .and (.cond (.cmp .lt b!"a" (.flex 7))) (.paren (.or (.leaf b!"b") (.leaf b!"dept:x")))
/-- `|a = 5|b` -/
def a2 : AExpr := .pre (.cat (.item (.num b!"a" (.flex 5))) (.item (.leaf b!"b")))

theorem nameOk {s : Bytes} (h : noDbl true s = true) : NameOk s := by
  refine ⟨?_, ?_⟩
  · cases s with
    | nil => simp
    | cons c s =>
      simp only [List.head?_cons, ne_eq, Option.some.injEq]
      rintro rfl
      simp [noDbl] at h
  · rintro ⟨x, y, rfl⟩
    have hf : ∀ (s : Bytes) (p : Bool) (t : Bytes), noDbl p (s ++ [58, 58] ++ t) = false := by
      intro s
      induction s with
      | nil => intro p t; cases p <;> simp [noDbl]
      | cons c s ih =>
        intro p t
        simp only [List.cons_append, noDbl]
        split
        · cases p
          · simp only [Bool.not_false, Bool.true_and]; exact ih _ _
          · simp
        · exact ih _ _
    rw [hf] at h; cases h

theorem text2 : PolicyText mk b!"a < 7 and (b or dept:x)" e2 where
  toks := by decide +kernel
  canon := by decide
  valid := by decide
  dates := by
    intro c hc
    simp [e2, Expr.conds] at hc
    subst hc
    rintro ⟨h, _⟩
    simp [CondSyn.toks, NumSyn.toks, CmpOp.tok] at h
  names := by
    refine ⟨?_, ?_⟩
    · intro s hs
      simp [e2, Expr.plain] at hs
      rcases hs with rfl | rfl <;> exact ⟨nameOk (by decide), by decide⟩
    · intro c hc
      simp [e2, Expr.conds] at hc
      subst hc
      exact nameOk (by decide)

theorem list2 : ListText mk b!"|a = 5|b" a2 where
  toks := by decide +kernel
  canon := by decide
  valid := by decide
  items := by
    refine ⟨by simp [a2, AExpr.items, Item.value], ?_⟩
    intro s n h
    simp [a2, AExpr.items] at h ⊢
    rw [h.1]; decide

theorem true2 : e2.trueFor mk a2 := by
  refine ⟨⟨5, 32, by simp [a2, AExpr.items, itemsNum, Item.value, NumSyn.val, createFlexint, CondSyn.base], ?_, ?_⟩, .inl ?_⟩
  · simp [CondSyn.cond, CmpOp.cond, NumCond.nums, NumSyn.val, createFlexint]
  · simp [CondSyn.cond, CmpOp.cond, NumCond.holds, NumSyn.val, createFlexint]
  · simp [Expr.holds, a2, AExpr.items]

theorem noPct2 : e2.Unnumbered := by
  refine Expr.NoPercent.unnumbered ⟨by decide, ?_⟩
  intro c hc
  simp [e2, Expr.conds] at hc
  subst hc
  decide

end TextEx
open TextEx LsssEx

/-! ### C76: the scanner -/

/-- The scanner's tables implement the lexical rules, longest match first: blanks are skipped, a word starts
with a letter or one of `$./[\]~` and extends as far as possible, a number is a maximal run of digits, `<=`, `>=`
and `==` are operators, and every other byte stands for itself. -/
theorem C76_scanner_rules (b : UInt8) (s : Bytes) :
    lex [] = [] ∧
    lex (b :: s) =
      if isBlank b then lex (s.dropWhile isBlank)
      else if b = 10 then .eol :: lex s
      else if isStart b then actLeaf (b :: s.takeWhile isWord) :: lex (s.dropWhile isWord)
      else if isDigit b then actUint (b :: s.takeWhile isDigit) :: lex (s.dropWhile isDigit)
      else if isCmp b ∧ s.head? = some 61 then actOp [b, 61] :: lex s.tail
      else .chr b :: lex s := ⟨lex_nil, lex_cons b s⟩

/-- Writing tokens down, separated by spaces, and scanning them gives the same tokens. -/
theorem C76_scanner_inverse (ts : List Tok) (h1 : ∀ t ∈ ts, TokOk t) (h2 : ∀ t ∈ ts, t.sign = true) :
    lex (spaced ts) = ts := lex_spaced ts h1 h2

example : spaced [.leaf b!"age", .geq, .uint 18, .chr 35, .uint 8] = b!"age >= 18 # 8 " ∧
    TokOk (.leaf b!"age") ∧ TokOk (.uint 18) := by
  refine ⟨by decide, by show isName _ = true; decide, by decide, by decide⟩

/-! ### C13 -/

/-- The policy parser accepts exactly the texts whose tokens (up to an end marker, see C15) the grammar
derives, if no date in the text is out of range. -/
theorem C13_accepts_iff_derivable (s : Bytes) (hd : NoBadDates mk s) :
    (∃ p, createPolicyTree mk s = .ok (some p)) ↔ ∃ e : Expr, e.valid = true ∧ effective (lex s) = e.toks := by
  constructor
  · rintro ⟨p, h⟩
    obtain ⟨e, hv, _, he⟩ := accepted h
    exact ⟨e, hv, he⟩
  · rintro ⟨e, hv, he⟩
    obtain ⟨h1, h2, h3⟩ := e.norm_spec
    rw [← h1] at he
    rw [← h3] at hv
    obtain ⟨t, d', p, h, _⟩ := createPolicyTree_ok mk h2 hv he (datesOk_of_text hd hv he)
    exact ⟨p, h⟩

/-- The accepted policy means the formula that precedence selects: `and` before `or`, both grouping to the
left. `checkIfSatisfied` with the attributes of a list text answers whether that formula is true for the list. -/
theorem C13_meaning (S : StdSort) (s l : Bytes) (e : Expr) (a : AExpr) (hs : PolicyText mk s e) (hl : ListText mk l a) :
    ∃ (p : Policy) (t : TNode) (al : AttrList) (r : Bool) (n : Int) (t' : TNode),
      createPolicyTree mk s = .ok (some p) ∧ p.root = some t ∧
      createAttributeList mk l = .ok (some al) ∧
      checkIfSatisfied S t al.attrs = .ok ((r, n), t') ∧ (r = true ↔ e.trueFor mk a) := by
  obtain ⟨p, t, d', h1, h2, h3, h4, _, h6, _, _, _, _, _, h10⟩ := parsed hs
  obtain ⟨al, g1, g2, g3⟩ := listed hl
  obtain ⟨n, t', hc, _⟩ := C03_check_decides_formula S t al.attrs h4 h6
  refine ⟨p, t, al, _, n, t', h1, h2, g1, hc, ?_⟩
  rw [g2]
  exact text_sat hs.valid h10 hs.dates hs.names hl.valid g3 hl.items h3

/-- `a < 7 and (b or dept:x)` with `|a = 5|b`. -/
example : PolicyText mk b!"a < 7 and (b or dept:x)" e2 ∧ ListText mk b!"|a = 5|b" a2 ∧ e2.trueFor mk a2 :=
  ⟨text2, list2, true2⟩

/-- Every formula can be written down so that the parser finds it again, for all names, numbers and depths. -/
theorem C13_every_formula_has_a_text (S : StdSort) (e : Expr) (a : AExpr) (hc : e.canon = true) (hv : e.valid = true)
    (hd : e.DatesOk mk) (hn : e.NamesOk) (ht : ∀ t ∈ e.toks, TokOk t) (hac : a.canon = true) (hav : a.valid = true)
    (hai : ItemsOk mk a.items) (hat : ∀ t ∈ a.toks, TokOk t) :
    ∃ (p : Policy) (t : TNode) (al : AttrList) (r : Bool) (n : Int) (t' : TNode),
      createPolicyTree mk (spaced e.toks) = .ok (some p) ∧ p.root = some t ∧
      createAttributeList mk (spaced a.toks) = .ok (some al) ∧
      checkIfSatisfied S t al.attrs = .ok ((r, n), t') ∧ (r = true ↔ e.trueFor mk a) := by
  refine C13_meaning S _ _ e a ⟨?_, hc, hv, hd, hn⟩ ⟨?_, hac, hav, hai⟩
  · rw [lex_spaced _ ht e.sign]; exact effective_self e.sym_ne
  · rw [lex_spaced _ hat a.sign]; exact effective_self a.sym_ne

example : spaced e2.toks = b!"a < 7 and ( b or dept:x ) " ∧ spaced a2.toks = b!"| a = 5 | b " := by decide

/-- `and` binds tighter than `or`: `a and b or c` and `c or a and b` are both true for `{c}`, and
`a and (b or c)` is not. -/
example : (Expr.toks e1 = [.leaf b!"a", .and, .leaf b!"b", .or, .leaf b!"c"]) ∧ e1.canon = true ∧
    (Expr.and (.leaf b!"a") (.or (.leaf b!"b") (.leaf b!"c"))).canon = false ∧
    (Expr.and (.leaf b!"a") (.or (.leaf b!"b") (.leaf b!"c"))).toks = e1.toks ∧
    (Expr.or (.leaf b!"c") (.and (.leaf b!"a") (.leaf b!"b"))).canon = true := by decide

/-! ### C14 -/

/-- A text whose tokens the grammar does not derive never yields a policy. -/
theorem C14_malformed_never_a_policy (s : Bytes) (h : ¬ ∃ e : Expr, e.valid = true ∧ effective (lex s) = e.toks)
    (p : Policy) : createPolicyTree mk s ≠ .ok (some p) := by
  intro hp
  obtain ⟨e, hv, _, he⟩ := accepted hp
  exact h ⟨e, hv, he⟩

/-- And the answer is the null pointer, never an exception, unless a date in the text is out of range. -/
theorem C14_malformed_gives_null (s : Bytes) (h : ¬ ∃ e : Expr, e.valid = true ∧ effective (lex s) = e.toks)
    (hd : NoBadDates mk s) : createPolicyTree mk s = .ok none := by
  rcases createPolicyTree_cases mk s with ⟨e, hv, _, he⟩ | hc | ⟨_, c, hv, hi, hb⟩
  · exact absurd ⟨e, hv, he⟩ h
  · exact hc
  · exact absurd hb (hd c hv hi)

/-- The empty string. -/
theorem C14_empty : createPolicyTree mk [] = .ok none := rfl

theorem Expr.toks_ne (e : Expr) : e.toks ≠ [] := by
  intro h
  have := e.steps_le
  rw [h] at this
  simp at this

/-- No expression ends with an operator: texts such as `… and` are rejected whatever comes before. -/
theorem C14_trailing_operator (s : Bytes) (ts : List Tok) (h : effective (lex s) = ts ++ [.and]) (p : Policy) :
    createPolicyTree mk s ≠ .ok (some p) := by
  refine C14_malformed_never_a_policy s ?_ p
  rintro ⟨e, _, he⟩
  rw [h] at he
  have hlast : ∀ e : Expr, e.toks.getLast? ≠ some .and := by
    intro e
    induction e with
    | leaf s => simp [Expr.toks]
    | cond c =>
      have hnum : ∀ n : NumSyn, n.toks.getLast? ≠ some .and := by intro n; cases n <;> simp [NumSyn.toks]
      have hne : ∀ n : NumSyn, n.toks ≠ [] := by intro n; cases n <;> simp [NumSyn.toks]
      cases c <;> simp only [Expr.toks, CondSyn.toks, List.getLast?_cons, List.getLast?_append, ne_eq] <;>
        simp [List.getLast?_eq_none_iff, hne, hnum] <;> (try (intro hh; rename_i n; cases n <;> simp [NumSyn.toks] at hh))
    | paren e _ => simp [Expr.toks, List.getLast?_cons, List.getLast?_append]
    | or l r _ ih =>
      simp only [Expr.toks, List.getLast?_append, List.getLast?_cons]
      cases hr : r.toks.getLast? with
      | none => exact absurd (List.getLast?_eq_none_iff.mp hr) r.toks_ne
      | some x => rw [hr] at ih; simpa using ih
    | and l r _ ih =>
      simp only [Expr.toks, List.getLast?_append, List.getLast?_cons]
      cases hr : r.toks.getLast? with
      | none => exact absurd (List.getLast?_eq_none_iff.mp hr) r.toks_ne
      | some x => rw [hr] at ih; simpa using ih
  exact hlast e (by rw [← he]; simp)

example : effective (lex b!"a or b and") = [.leaf b!"a", .or, .leaf b!"b"] ++ [.and] := by decide +kernel

/-! ### C15 -/

/-- A text without NUL and without bytes above 127 is honoured to the end: if it is accepted, all its tokens
form the policy. -/
theorem C15_whole_text_partial (s : Bytes) (hs : ∀ b ∈ s, b ≠ 0 ∧ b < 128) (p : Policy)
    (h : createPolicyTree mk s = .ok (some p)) : ∃ e : Expr, e.valid = true ∧ e.canon = true ∧ lex s = e.toks := by
  obtain ⟨e, hv, hc, he⟩ := accepted h
  rw [effective_clean hs] at he
  exact ⟨e, hv, hc, he⟩

example : ∀ b ∈ b!"a and (b or c)", b ≠ 0 ∧ b < 128 := by decide

/-- The code violates C15: after a NUL byte the rest of the text is ignored. Whatever follows an accepted
policy behind a NUL, the result is the same policy. -/
theorem C15_nul_hides_the_rest_violated (s r : Bytes) (p : Policy) (h : createPolicyTree mk s = .ok (some p)) :
    createPolicyTree mk (s ++ 0 :: r) = .ok (some { p with compact := s ++ 0 :: r }) := by
  obtain ⟨e, t, d', hv, hc, he, hev, hp⟩ := accepted_eval h
  have he' : effective (lex (s ++ 0 :: r)) = e.toks := by rw [lex_stop_nul, effective_nul, he]
  have hin := e.eval_input (mk := mk) (s ++ 0 :: r) { input := s }
  rw [hev] at hin
  have := policy_of_eval hc hv he' hin
  rw [this]
  subst hp
  rfl

/-- In particular the policies `admin` and `admin␀ and clearance` are the same. -/
example : ∃ p p', createPolicyTree mk b!"admin" = .ok (some p) ∧
    createPolicyTree mk (b!"admin" ++ 0 :: b!" and clearance") = .ok (some p') ∧ p'.root = p.root := by
  obtain ⟨p, h⟩ := (C13_accepts_iff_derivable (mk := mk) b!"admin" (by
    intro c _ hi
    have : lex b!"admin" = [.leaf b!"admin"] := by decide +kernel
    rw [this] at hi
    have := hi.length_le
    cases c <;> simp [CondSyn.toks] at this)).mpr ⟨.leaf b!"admin", rfl, by decide +kernel⟩
  exact ⟨p, _, h, C15_nul_hides_the_rest_violated _ _ p h, rfl⟩

/-! ### C16 -/

/-- Printing a policy of plain attributes and parsing the result gives the same policy: the same tree, the
same numbering of repeated attributes, the same sets of names. -/
theorem C16_print_parse_partial (s : Bytes) (e : Expr) (h : PolicyText mk s e) (hp : e.conds = []) :
    ∃ (p : Policy) (t : TNode), createPolicyTree mk s = .ok (some p) ∧ p.root = some t ∧
      createPolicyTree mk t.str = .ok (some { p with compact := t.str }) := by
  obtain ⟨p, t, d', h1, h2, h3, _, _, _, _, _, _, _, _, h10⟩ := parsed h
  have hl := e.str_lex _ _ t hp h10 h.names.1 h3
  refine ⟨p, t, h1, h2, ?_⟩
  have he : effective (lex t.str) = e.full.toks := by rw [hl]; exact effective_self e.full.sym_ne
  have hin := e.full.eval_input (mk := mk) t.str { input := s }
  rw [e.full_eval { input := s }, h3] at hin
  rw [policy_of_eval e.full_canon (by rw [e.full_valid]; exact h.valid) he hin]
  have hpol := policy_of_eval h.canon h.valid h.toks h3
  rw [h1] at hpol
  simp only [Res.ok.injEq, Option.some.injEq] at hpol
  subst hpol
  rfl

example : Expr.conds (.and (.leaf b!"a") (.paren (.or (.leaf b!"b") (.leaf b!"a")))) = [] ∧
    PolicyText mk b!"a and (b or a)" (.and (.leaf b!"a") (.paren (.or (.leaf b!"b") (.leaf b!"a")))) := by
  refine ⟨rfl, by decide +kernel, by decide, by decide, by simp [Expr.DatesOk, Expr.conds], ?_, by simp [Expr.conds]⟩
  intro s hs
  simp [Expr.plain] at hs
  rcases hs with rfl | rfl | rfl <;> exact ⟨nameOk (by decide), by decide⟩

/-- The code violates C16: the attribute `[0]::` is accepted, printed as `[0]:`, and that is a keyword. -/
theorem C16_bracket_violated : ∃ (p : Policy) (t : TNode), createPolicyTree mk b!"[0]::" = .ok (some p) ∧
    p.root = some t ∧ t.str = b!"[0]:" ∧ createPolicyTree mk t.str = .ok none := by
  refine ⟨_, .leaf {} b!"[0]" [] (some 0), policy_of_eval (e := .leaf b!"[0]::") rfl rfl (by decide +kernel) rfl, rfl,
    by decide, ?_⟩
  rfl

/-- A text with a word that the scanner rejects, and without commas, gives the null pointer. -/
theorem error_null {s : Bytes} (h1 : Tok.error ∈ effective (lex s)) (h2 : Tok.chr 44 ∉ lex s) :
    createPolicyTree mk s = .ok none := by
  refine C14_malformed_gives_null s ?_ ?_
  · rintro ⟨e, _, he⟩
    rw [he] at h1
    exact absurd (e.sign _ h1) (by decide)
  · rintro c _ hi ⟨hc, _⟩
    exact h2 (hi.subset hc)

/-- And a numeric comparison prints as words that the scanner rejects. -/
theorem C16_numeric_violated : ∃ (p : Policy) (t : TNode), createPolicyTree mk b!"a==5#4" = .ok (some p) ∧
    p.root = some t ∧ createPolicyTree mk t.str = .ok none := by
  obtain ⟨t, d', h1⟩ := compile_ok { input := b!"a==5#4" } b!"a" (.eq ⟨5, 4⟩)
    (by simp only [NumCond.nums, List.mem_singleton, forall_eq]; unfold NumOk; decide)
  have h3 : (eqPolicy { input := b!"a==5#4" } b!"a" ⟨5, 4⟩).bind (fun r => .ok (decide (Tok.error ∈ effective (lex r.1.str)) &&
      decide (Tok.chr 44 ∉ lex r.1.str))) = .ok true := by decide +kernel
  have h1' : eqPolicy { input := b!"a==5#4" } b!"a" ⟨5, 4⟩ = .ok (t, d') := h1
  rw [h1'] at h3
  simp only [Res.bind, Res.ok.injEq, Bool.and_eq_true, decide_eq_true_eq] at h3
  exact ⟨_, t, policy_of_eval (e := .cond (.cmp .eq b!"a" (.exp 5 4))) (by decide) (by decide) (by decide +kernel) h1, rfl,
    error_null h3.1 h3.2⟩

/-! ### C17 -/

theorem addRoot_eval {s a : Bytes} {e : Expr} {t : TNode} {d' : Drv} {p : Policy} (hc : e.canon = true)
    (hv : e.valid = true) (he : lex s = e.toks) (hev : e.eval mk { input := s } = .ok (t, d')) (hp : p.compact = s)
    (hr : p.revocation = false) (ha : isName a = true) (ha' : PlainOk a) (ty : Gate) (hty : ty = .and ∨ ty = .or) :
    ∃ (p' : Policy) (t' : TNode), addToRootOfInput mk ty a p = .ok (some p') ∧ p'.root = some t' ∧
      ∀ A, sat A t' = (if ty = .and then sat A t && decide (a ∈ A) else sat A t || decide (a ∈ A)) := by
  have hca := ha'.canon (name_ne_nil ha)
  let e' : Expr := if ty = .and then .and (.paren e) (.leaf a) else .or (.paren e) (.leaf a)
  have hlex : lex (b!"(" ++ p.compact ++ b!")" ++ gateString ty ++ a) = e'.toks := by
    rw [hp]
    rcases hty with rfl | rfl
    · have e1 : b!"(" ++ s ++ b!")" ++ gateString .and ++ a = 40 :: (s ++ 41 :: ([] ++ 32 :: (b!"and " ++ a))) := by
        simp [gateString]
      rw [e1, lex_open, lex_stop_close, lex_stop_space, lex_and, lex_name' ha, he]
      simp [e', Expr.toks, lex_nil]
    · have e1 : b!"(" ++ s ++ b!")" ++ gateString .or ++ a = 40 :: (s ++ 41 :: ([] ++ 32 :: (b!"or " ++ a))) := by
        simp [gateString]
      rw [e1, lex_open, lex_stop_close, lex_stop_space, lex_or, lex_name' ha, he]
      simp [e', Expr.toks, lex_nil]
  generalize hx : b!"(" ++ p.compact ++ b!")" ++ gateString ty ++ a = x at hlex
  have hin := e.eval_input (mk := mk) x { input := s }
  rw [hev] at hin
  have hin' : e.eval mk { input := x } = .ok (t, { d' with input := x }) := hin
  obtain ⟨u, d2, hu, hsat⟩ := leafNode_canon (d := { d' with input := x }) hca
  have hc' : e'.canon = true ∧ e'.valid = true := by
    simp only [e']; split <;> simp [Expr.canon, Expr.valid, hc, hv, Expr.isOr, Expr.isAnd]
  have heff : effective (lex x) = e'.toks := by rw [hlex]; exact effective_self e'.sym_ne
  have hev' : e'.eval mk { input := x } = .ok (kof2 (if ty = .and then 2 else 1) t u, d2) := by
    simp only [e']
    rcases hty with rfl | rfl
    · simp only [if_true, Expr.eval, hin', Res.ok_bind, hu]
    · simp only [if_neg (show ¬ Gate.or = Gate.and by decide), Expr.eval, hin', Res.ok_bind, hu]
  refine ⟨builtPolicy d2 (kof2 (if ty = .and then 2 else 1) t u), _, ?_, rfl, ?_⟩
  · unfold addToRootOfInput
    rw [hr, hx]
    exact policy_of_eval hc'.1 hc'.2 heff hev'
  · intro A
    rcases hty with rfl | rfl
    · simp [kof2, sat, satL, hsat]
    · simp [kof2, sat, satL, hsat]

/-- `addToRootOfInput(AND, a)` adds exactly the conjunct `a` and `addToRootOfInput(OR, a)` exactly the disjunct
`a`, for every accepted policy text without NUL and non-ASCII bytes. -/
theorem C17_add_to_root_partial (s a : Bytes) (hs : ∀ b ∈ s, b ≠ 0 ∧ b < 128) (p : Policy) (t : TNode)
    (h : createPolicyTree mk s = .ok (some p)) (ht : p.root = some t) (ha : isName a = true) (ha' : PlainOk a) :
    (∃ p' t', addToRootOfInput mk .and a p = .ok (some p') ∧ p'.root = some t' ∧
      ∀ A, sat A t' = true ↔ sat A t = true ∧ a ∈ A) ∧
    (∃ p' t', addToRootOfInput mk .or a p = .ok (some p') ∧ p'.root = some t' ∧
      ∀ A, sat A t' = true ↔ sat A t = true ∨ a ∈ A) := by
  obtain ⟨e, t1, d', hv, hc, he, hev, hp⟩ := accepted_eval h
  rw [effective_clean hs] at he
  subst hp
  cases ht
  have hin : d'.input = s := by
    have := e.eval_input (mk := mk) s { input := s }
    rw [hev] at this
    simp only [withInput, Res.bind, Res.ok.injEq, Prod.mk.injEq, true_and] at this
    rw [this]
  constructor
  · obtain ⟨p', t', h1, h2, h3⟩ := addRoot_eval (p := builtPolicy d' t) hc hv he hev hin rfl ha ha' .and (.inl rfl)
    exact ⟨p', t', h1, h2, fun A => by rw [h3]; simp⟩
  · obtain ⟨p', t', h1, h2, h3⟩ := addRoot_eval (p := builtPolicy d' t) hc hv he hev hin rfl ha ha' .or (.inr rfl)
    exact ⟨p', t', h1, h2, fun A => by rw [h3]; simp⟩

example : (∀ b ∈ b!"x or y", b ≠ 0 ∧ b < 128) ∧ isName b!"role:admin" = true ∧ PlainOk b!"role:admin" ∧
    ∃ p, createPolicyTree mk b!"x or y" = .ok (some p) :=
  ⟨by decide, by decide, ⟨nameOk (by decide), by decide⟩, _,
    policy_of_eval (e := .or (.leaf b!"x") (.leaf b!"y")) rfl rfl (by decide +kernel) rfl⟩

/-- The code violates C17: a policy accepted because of a NUL byte turns into the null pointer. -/
theorem C17_nul_violated : ∃ p, createPolicyTree mk (b!"a" ++ [0]) = .ok (some p) ∧
    addToRootOfInput mk .and b!"b" p = .ok none :=
  ⟨_, policy_of_eval (e := .leaf b!"a") rfl rfl (by decide +kernel) rfl, rfl⟩

/-- The added text is not protected by parentheses: "adding the conjunct" `x or y` to `a` gives a policy
satisfied by `y` alone. -/
theorem C17_attribute_text_violated : ∃ p p' t', createPolicyTree mk b!"a" = .ok (some p) ∧
    addToRootOfInput mk .and b!"x or y" p = .ok (some p') ∧ p'.root = some t' ∧ sat [b!"y"] t' = true := by
  have h1 := policy_of_eval (mk := mk) (s := b!"a") (e := .leaf b!"a") (t := .leaf {} [] b!"a" (some 0))
    (d' := { attrCount := [(b!"a", 1)], input := b!"a" }) rfl rfl (by decide +kernel) rfl
  have h2 := policy_of_eval (mk := mk) (s := b!"(a) and x or y")
    (e := .or (.and (.paren (.leaf b!"a")) (.leaf b!"x")) (.leaf b!"y"))
    (t := kof2 1 (kof2 2 (.leaf {} [] b!"a" (some 0)) (.leaf {} [] b!"x" (some 0))) (.leaf {} [] b!"y" (some 0)))
    (d' := { attrCount := [(b!"a", 1), (b!"x", 1), (b!"y", 1)], input := b!"(a) and x or y" })
    rfl rfl (by decide +kernel) rfl
  exact ⟨_, _, _, h1, h2, rfl, by decide⟩

/-! ### C18, C07 -/

/-- In a parsed policy in which no name is another one followed by `%` and a number all leaves have different share labels, however often an attribute
is repeated. -/
theorem C18_distinct_labels_partial (s : Bytes) (e : Expr) (h : PolicyText mk s e) (hp : e.Unnumbered) :
    ∃ (p : Policy) (t : TNode), createPolicyTree mk s = .ok (some p) ∧ p.root = some t ∧
      ((leaves t).map (uniqueLabel (if p.hasDup then p.dupCount else []))).Nodup := by
  obtain ⟨p, t, d', h1, h2, _, _, _, _, _, h8, h9, _⟩ := parsed h
  exact ⟨p, t, h1, h2, uniqueLabel_nodup (hp.labels h9) h8⟩

example : PolicyText mk b!"a < 7 and (b or dept:x)" e2 ∧ e2.Unnumbered := ⟨text2, noPct2⟩

theorem AndOr.pos_all : ∀ {t : TNode}, AndOr t → PosGates t := fun h => h.pos

/-- C07 for policy texts: one row per leaf. -/
theorem C07_one_row_per_leaf_text_partial {F : Type} [Field F] [DecidableEq F] (s : Bytes) (e : Expr)
    (h : PolicyText mk s e) (hp : e.Unnumbered) (secret : F) (tape : Nat → F) :
    ∃ (p : Policy) (t : TNode) (o : LSSS F) (n : Nat), createPolicyTree mk s = .ok (some p) ∧ p.root = some t ∧
      shareSecret false {} (some p) secret tape = .ok (o, n) ∧ o.results.length = (leaves t).length := by
  obtain ⟨p, t, d', h1, h2, _, h4, _, _, h7, h8, h9, _⟩ := parsed h
  obtain ⟨o, n, h10, h11, _⟩ := C07_one_row_per_leaf_partial p t secret tape h2 h4.pos h7 (hp.labels h9) h8
  exact ⟨p, t, o, n, h1, h2, h10, h11⟩

namespace TextEx
/-- the tree of `a or a or a%1` -/
def pctTree : TNode := kof2 1 (kof2 1 (.leaf {} [] b!"a" (some 0)) (.leaf {} [] b!"a" (some 1))) (.leaf {} [] b!"a%1" (some 0))
/-- its policy -/
def pctPolicy : Policy := { root := some pctTree, hasDup := true, dupCount := [(b!"a", 2)], completeSet := [b!"a", b!"a%1"], compact := b!"a or a or a%1" }

theorem pct_parse : createPolicyTree mk b!"a or a or a%1" = .ok (some pctPolicy) :=
  policy_of_eval (mk := mk) (s := b!"a or a or a%1") (e := .or (.or (.leaf b!"a") (.leaf b!"a")) (.leaf b!"a%1"))
    (t := pctTree) (d' := { attrCount := [(b!"a", 2), (b!"a%1", 1)], attrDup := [b!"a"], input := b!"a or a or a%1" })
    rfl rfl (by decide +kernel) rfl

/-- the tree of `a:b: or a:b` -/
def colTree : TNode := kof2 1 (.leaf {} b!"a" b!"b" (some 0)) (.leaf {} b!"a" b!"b" (some 0))
/-- its policy -/
def colPolicy : Policy := { root := some colTree, hasDup := false, dupCount := [], completeSet := [b!"a:b", b!"a:b:"], prefixSet := [b!"a"], compact := b!"a:b: or a:b" }

theorem col_parse : createPolicyTree mk b!"a:b: or a:b" = .ok (some colPolicy) :=
  policy_of_eval (mk := mk) (s := b!"a:b: or a:b") (e := .or (.leaf b!"a:b:") (.leaf b!"a:b")) (t := colTree)
    (d' := { attrCount := [(b!"a:b", 1), (b!"a:b:", 1)], attrPrefix := [b!"a"], input := b!"a:b: or a:b" })
    rfl rfl (by decide +kernel) rfl
end TextEx

/-- The code violates C18 and C07: in `a or a or a%1` the second `a` and the leaf `a%1` get the same label. -/
theorem C18_percent_violated : ∃ (p : Policy) (t : TNode), createPolicyTree mk b!"a or a or a%1" = .ok (some p) ∧
    p.root = some t ∧ ¬ ((leaves t).map (uniqueLabel (if p.hasDup then p.dupCount else []))).Nodup :=
  ⟨pctPolicy, pctTree, pct_parse, rfl, by decide⟩

/-- Three leaves, two rows: a share is lost. -/
theorem C07_lost_share_violated {F : Type} [Field F] [DecidableEq F] (secret : F) (tape : Nat → F) :
    ∃ (p : Policy) (t : TNode) (o : LSSS F) (n : Nat), createPolicyTree mk b!"a or a or a%1" = .ok (some p) ∧
      p.root = some t ∧ shareSecret false {} (some p) secret tape = .ok (o, n) ∧
      (leaves t).length = 3 ∧ o.results.length = 2 := by
  refine ⟨pctPolicy, pctTree, _, _, pct_parse, rfl, shareSecret_ok {} pctPolicy pctTree secret tape rfl ?_ ?_, rfl, ?_⟩
  · simp [pctTree, kof2, PosGates, PosGatesL, thresholdValue]
  · have : ∀ l ∈ leaves pctTree, l.idx.isSome = true := by decide
    exact fun l hl _ => this l hl
  · simp only [pctTree, kof2, emit, emitL, toRow, uniqueLabel, Leaf.label, completeLabel, effCount, pctPolicy, SMap.addRows,
      SMap.insert, SMap.find, List.map_cons, List.map_nil, List.nil_append, List.append_nil, List.cons_append, if_true]
    rfl

/-- Names with a trailing colon collide as well: the prefix and the attribute are split and rejoined, the
repetition is counted under the written text. In `a:b: or a:b` both leaves have the label `a:b`. -/
theorem C18_colon_violated : ∃ (p : Policy) (t : TNode), createPolicyTree mk b!"a:b: or a:b" = .ok (some p) ∧
    p.root = some t ∧ (leaves t).map (uniqueLabel (if p.hasDup then p.dupCount else [])) = [b!"a:b", b!"a:b"] :=
  ⟨colPolicy, colTree, col_parse, rfl, by decide⟩

/-! ### C01 and C02 from text to secret -/

/-- From policy text and attribute-list text to the secret: if the formula is true for the list, sharing under
the parsed policy and recovering with the parsed list gives the secret back. -/
theorem C01_text_share_recover {F : Type} [Field F] [DecidableEq F] (S : StdSort) (s l : Bytes) (e : Expr) (a : AExpr)
    (hs : PolicyText mk s e) (hl : ListText mk l a) (hp : e.Unnumbered) (htrue : e.trueFor mk a) (secret : F)
    (tape : Nat → F) :
    ∃ (p : Policy) (al : AttrList) (shares coeffs : LSSS F) (n : Nat) (p' : Policy),
      createPolicyTree mk s = .ok (some p) ∧ createAttributeList mk l = .ok (some al) ∧
      shareSecret false {} (some p) secret tape = .ok (shares, n) ∧
      recoverCoefficients S false {} (some p) al.attrs = .ok (true, coeffs, p') ∧
      testSecretRecovery coeffs.results shares.results = secret := by
  obtain ⟨p, t, d', h1, h2, h3, h4, h5, h6, h7, h8, h9, _, _, h10⟩ := parsed hs
  obtain ⟨al, g1, g2, g3⟩ := listed hl
  have hsat : sat al.attrs t = true := by
    rw [g2]; exact (text_sat hs.valid h10 hs.dates hs.names hl.valid g3 hl.items h3).mpr htrue
  obtain ⟨sh, co, n, p', r1, r2, r3⟩ := C01_share_recover_inverse S p t al.attrs secret tape h2 h4 h5 h6
    (fun l hl _ => h7 l hl) (uniqueLabel_nodup (hp.labels h9) h8) hsat
  exact ⟨p, al, sh, co, n, p', h1, g1, r1, r2, r3⟩

/-- If the formula is not true for the list, recovery answers no and leaves no coefficients. -/
theorem C02_text_recover_refused {F : Type} [Field F] [DecidableEq F] (S : StdSort) (s l : Bytes) (e : Expr) (a : AExpr)
    (hs : PolicyText mk s e) (hl : ListText mk l a) (hfalse : ¬ e.trueFor mk a) :
    ∃ (p : Policy) (al : AttrList) (coeffs : LSSS F) (p' : Policy),
      createPolicyTree mk s = .ok (some p) ∧ createAttributeList mk l = .ok (some al) ∧
      recoverCoefficients S false {} (some p) al.attrs = .ok (false, coeffs, p') ∧ coeffs.results = [] := by
  obtain ⟨p, t, d', h1, h2, h3, h4, h5, h6, h7, _, _, _, _, h10⟩ := parsed hs
  obtain ⟨al, g1, g2, g3⟩ := listed hl
  have hsat : sat al.attrs t = false := by
    rw [g2, ← Bool.not_eq_true]
    exact fun h => hfalse ((text_sat hs.valid h10 hs.dates hs.names hl.valid g3 hl.items h3).mp h)
  obtain ⟨o', p', r1, r2, _⟩ := C02_recover_iff_satisfied S ({} : LSSS F) p t al.attrs h2 h4 h6 (.inl h5) h7
  rw [hsat] at r1
  exact ⟨p, al, o', p', h1, g1, r1, r2 hsat⟩

example : PolicyText mk b!"a < 7 and (b or dept:x)" e2 ∧ ListText mk b!"|a = 5|b" a2 ∧ e2.Unnumbered ∧ e2.trueFor mk a2 :=
  ⟨text2, list2, noPct2, true2⟩

end Abe
