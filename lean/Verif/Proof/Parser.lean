import Verif.Proof.ParserInv
/-!
# Parsing texts: acceptance, rejection and the tree that is built
-/
set_option linter.unusedSimpArgs false
set_option linter.unusedSectionVars false
set_option autoImplicit false
namespace Abe

variable {mk : Mktime}

/-! ### Every token sequence of the grammar has a derivation that respects precedence -/
namespace Expr

/-- `l or r` regrouped to the left. -/
def joinOr (l : Expr) : Expr → Expr
  | or a b => or (joinOr l a) b
  | leaf s => or l (leaf s)
  | cond c => or l (cond c)
  | paren e => or l (paren e)
  | and a b => or l (and a b)

/-- `l and r` regrouped to the left, `r` without a top-level `or`. -/
def joinAnd' (l : Expr) : Expr → Expr
  | and a b => and (joinAnd' l a) b
  | leaf s => and l (leaf s)
  | cond c => and l (cond c)
  | paren e => and l (paren e)
  | or a b => and l (or a b)

/-- The same when `l` may be an `or`. -/
def joinAndL (l r : Expr) : Expr :=
  match l with
  | or a b => or a (joinAnd' b r)
  | l => joinAnd' l r

/-- `l and r` regrouped. -/
def joinAnd (l : Expr) : Expr → Expr
  | or a b => or (joinAnd l a) b
  | leaf s => joinAndL l (leaf s)
  | cond c => joinAndL l (cond c)
  | paren e => joinAndL l (paren e)
  | and a b => joinAndL l (and a b)

/-- The derivation of the same tokens that respects precedence. -/
def norm : Expr → Expr
  | leaf s => leaf s
  | cond c => cond c
  | paren e => paren e.norm
  | or l r => joinOr l.norm r.norm
  | and l r => joinAnd l.norm r.norm

theorem joinOr_spec (l : Expr) (hl : l.canon = true) : ∀ r : Expr, r.canon = true →
    (joinOr l r).toks = l.toks ++ .or :: r.toks ∧ (joinOr l r).canon = true ∧
      (joinOr l r).valid = (l.valid && r.valid)
  | or a b, h => by
    simp only [canon, Bool.and_eq_true] at h
    obtain ⟨h1, h2, h3⟩ := joinOr_spec l hl a h.1.1
    exact ⟨by simp [joinOr, toks, h1], by simp [joinOr, canon, h2, h.1.2]; simpa using h.2,
      by simp [joinOr, valid, h3, Bool.and_assoc]⟩
  | leaf s, h => by simp [joinOr, toks, canon, valid, isOr, hl]
  | cond c, h => by simp [joinOr, toks, canon, valid, isOr, hl]
  | paren e, h => by simp [joinOr, toks, canon, valid, isOr, hl]; simpa [canon] using h
  | and a b, h => by
    have e : (and a b).isOr = false := rfl
    simp only [joinOr, toks, valid, true_and, and_true]
    rw [canon, hl, h, e]; simp

theorem joinAnd'_spec (l : Expr) (hl : l.canon = true) (ho : l.isOr = false) : ∀ r : Expr, r.canon = true →
    r.isOr = false → (joinAnd' l r).toks = l.toks ++ .and :: r.toks ∧ (joinAnd' l r).canon = true ∧
      (joinAnd' l r).isOr = false ∧ (joinAnd' l r).valid = (l.valid && r.valid)
  | and a b, h, _ => by
    simp only [canon, Bool.and_eq_true, Bool.not_eq_true'] at h
    obtain ⟨⟨⟨⟨h1, h2⟩, h3⟩, h4⟩, h5⟩ := h
    obtain ⟨e1, e2, e3, e4⟩ := joinAnd'_spec l hl ho a h1 h3
    exact ⟨by simp [joinAnd', toks, e1], by simp [joinAnd', canon, e2, h2, e3, h4, h5], rfl,
      by simp [joinAnd', valid, e4, Bool.and_assoc]⟩
  | leaf s, h, _ => by
    have e : (leaf s).isOr = false := rfl
    have e' : (leaf s).isAnd = false := rfl
    simp only [joinAnd', toks, valid, true_and, and_true]
    rw [canon, hl, h, e, e', ho]; simp [isOr]
  | cond c, h, _ => by
    have e : (cond c).isOr = false := rfl
    have e' : (cond c).isAnd = false := rfl
    simp only [joinAnd', toks, valid, true_and, and_true]
    rw [canon, hl, h, e, e', ho]; simp [isOr]
  | paren x, h, _ => by
    have e : (paren x).isOr = false := rfl
    have e' : (paren x).isAnd = false := rfl
    simp only [joinAnd', toks, valid, true_and, and_true]
    rw [canon, hl, h, e, e', ho]; simp [isOr]
  | or a b, _, h => by simp [isOr] at h

theorem joinAndL_spec (l : Expr) (hl : l.canon = true) (r : Expr) (hr : r.canon = true) (ho : r.isOr = false) :
    (joinAndL l r).toks = l.toks ++ .and :: r.toks ∧ (joinAndL l r).canon = true ∧
      (joinAndL l r).valid = (l.valid && r.valid) := by
  cases l with
  | or a b =>
    simp only [canon, Bool.and_eq_true, Bool.not_eq_true'] at hl
    obtain ⟨e1, e2, e3, e4⟩ := joinAnd'_spec b hl.1.2 hl.2 r hr ho
    exact ⟨by simp [joinAndL, toks, e1], by simp [joinAndL, canon, e2, e3, hl.1.1], by
      simp [joinAndL, valid, e4, Bool.and_assoc]⟩
  | leaf s => have := joinAnd'_spec (leaf s) hl rfl r hr ho; exact ⟨this.1, this.2.1, this.2.2.2⟩
  | cond c => have := joinAnd'_spec (cond c) hl rfl r hr ho; exact ⟨this.1, this.2.1, this.2.2.2⟩
  | paren e => have := joinAnd'_spec (paren e) hl rfl r hr ho; exact ⟨this.1, this.2.1, this.2.2.2⟩
  | and a b => have := joinAnd'_spec (and a b) hl rfl r hr ho; exact ⟨this.1, this.2.1, this.2.2.2⟩

theorem joinAnd_spec (l : Expr) (hl : l.canon = true) : ∀ r : Expr, r.canon = true →
    (joinAnd l r).toks = l.toks ++ .and :: r.toks ∧ (joinAnd l r).canon = true ∧
      (joinAnd l r).valid = (l.valid && r.valid)
  | or a b, h => by
    simp only [canon, Bool.and_eq_true] at h
    obtain ⟨h1, h2, h3⟩ := joinAnd_spec l hl a h.1.1
    exact ⟨by simp [joinAnd, toks, h1], by simp [joinAnd, canon, h2, h.1.2]; simpa using h.2,
      by simp [joinAnd, valid, h3, Bool.and_assoc]⟩
  | leaf s, h => joinAndL_spec l hl (leaf s) h rfl
  | cond c, h => joinAndL_spec l hl (cond c) h rfl
  | paren e, h => joinAndL_spec l hl (paren e) h rfl
  | and a b, h => joinAndL_spec l hl (and a b) h rfl

theorem norm_spec : ∀ e : Expr, e.norm.toks = e.toks ∧ e.norm.canon = true ∧ e.norm.valid = e.valid
  | leaf s => by simp [norm, canon]
  | cond c => by simp [norm, canon]
  | paren e => by have := norm_spec e; simp [norm, canon, toks, valid, this]
  | or l r => by
    have h1 := norm_spec l
    have h2 := norm_spec r
    have h := joinOr_spec l.norm h1.2.1 r.norm h2.2.1
    simp [norm, toks, valid, h, h1, h2]
  | and l r => by
    have h1 := norm_spec l
    have h2 := norm_spec r
    have h := joinAnd_spec l.norm h1.2.1 r.norm h2.2.1
    simp [norm, toks, valid, h, h1, h2]

end Expr

/-! ### Tokens that end the input -/

theorem NumSyn.sym_ne : ∀ n : NumSyn, ∀ t ∈ n.toks, t.sym ≠ 0
  | .exp _ _ => by simp [NumSyn.toks, Tok.sym]
  | .flex _ => by simp [NumSyn.toks, Tok.sym]

theorem CondSyn.sym_ne (c : CondSyn) : ∀ t ∈ c.toks, t.sym ≠ 0 := by
  cases c with
  | cmp op s n =>
    intro t ht
    simp only [CondSyn.toks, List.mem_cons] at ht
    rcases ht with rfl | rfl | ht
    · simp [Tok.sym]
    · cases op <;> simp [CmpOp.tok, Tok.sym]
    · exact n.sym_ne t ht
  | rangeO s lo hi =>
    intro t ht
    simp only [CondSyn.toks, List.mem_cons, List.mem_append, List.not_mem_nil, or_false] at ht
    rcases ht with rfl | rfl | rfl | ht | rfl | ht | rfl
    all_goals first | exact NumSyn.sym_ne _ _ ht | simp [Tok.sym]
  | rangeC s lo hi =>
    intro t ht
    simp only [CondSyn.toks, List.mem_cons, List.mem_append, List.not_mem_nil, or_false] at ht
    rcases ht with rfl | rfl | rfl | ht | rfl | ht | rfl
    all_goals first | exact NumSyn.sym_ne _ _ ht | simp [Tok.sym]
  | date op s m d y =>
    intro t ht
    simp only [CondSyn.toks, List.mem_cons, List.mem_append, List.not_mem_nil, or_false] at ht
    rcases ht with rfl | rfl | rfl | ht | rfl | ht
    all_goals first | exact NumSyn.sym_ne _ _ ht | (simp [Tok.sym]; done) | (cases op <;> simp [CmpOp.tok, CmpOp.dateTok, Tok.sym])
  | dateRange s m d1 d2 y =>
    intro t ht
    simp only [CondSyn.toks, List.mem_cons, List.mem_append, List.not_mem_nil, or_false] at ht
    rcases ht with rfl | rfl | rfl | ht | rfl | ht | rfl | ht
    all_goals first | exact NumSyn.sym_ne _ _ ht | simp [Tok.sym]

theorem Expr.sym_ne : ∀ e : Expr, ∀ t ∈ e.toks, t.sym ≠ 0
  | .leaf s => by simp [Expr.toks, Tok.sym]
  | .cond c => c.sym_ne
  | .paren e => by
    intro t ht
    simp only [Expr.toks, List.mem_cons, List.mem_append, List.not_mem_nil, or_false] at ht
    rcases ht with rfl | ht | rfl
    · simp [Tok.sym]
    · exact e.sym_ne t ht
    · simp [Tok.sym]
  | .or l r => by
    intro t ht
    simp only [Expr.toks, List.mem_cons, List.mem_append] at ht
    rcases ht with ht | rfl | ht
    · exact l.sym_ne t ht
    · simp [Tok.sym]
    · exact r.sym_ne t ht
  | .and l r => by
    intro t ht
    simp only [Expr.toks, List.mem_cons, List.mem_append] at ht
    rcases ht with ht | rfl | ht
    · exact l.sym_ne t ht
    · simp [Tok.sym]
    · exact r.sym_ne t ht

theorem Item.sym_ne (i : Item) : ∀ t ∈ i.toks, t.sym ≠ 0 := by
  cases i with
  | leaf s => simp [Item.toks, Tok.sym]
  | num s n =>
    intro t ht
    simp only [Item.toks, List.mem_cons] at ht
    rcases ht with rfl | rfl | ht
    all_goals first | exact NumSyn.sym_ne _ _ ht | simp [Tok.sym]
  | date s m d y =>
    intro t ht
    simp only [Item.toks, List.mem_cons, List.mem_append] at ht
    rcases ht with rfl | rfl | rfl | ht | rfl | ht
    all_goals first | exact NumSyn.sym_ne _ _ ht | simp [Tok.sym]

theorem AExpr.sym_ne : ∀ a : AExpr, ∀ t ∈ a.toks, t.sym ≠ 0
  | .item i => i.sym_ne
  | .pre a => by
    intro t ht
    simp only [AExpr.toks, List.mem_cons] at ht
    rcases ht with rfl | ht
    · simp [Tok.sym]
    · exact a.sym_ne t ht
  | .post a => by
    intro t ht
    simp only [AExpr.toks, List.mem_append, List.mem_cons, List.not_mem_nil, or_false] at ht
    rcases ht with ht | rfl
    · exact a.sym_ne t ht
    · simp [Tok.sym]
  | .cat a b => by
    intro t ht
    simp only [AExpr.toks, List.mem_append, List.mem_cons] at ht
    rcases ht with ht | rfl | ht
    · exact a.sym_ne t ht
    · simp [Tok.sym]
    · exact b.sym_ne t ht

theorem effective_append {l ts : List Tok} (hl : ∀ t ∈ l, t.sym ≠ 0) (h : la ts = 0) : effective (l ++ ts) = l := by
  unfold effective
  rw [List.takeWhile_append_of_pos (by simpa using hl)]
  cases ts with
  | nil => simp
  | cons t r => simp only [la] at h; simp [h]

theorem effective_split : ∀ ts : List Tok, ∃ r, ts = effective ts ++ r ∧ la r = 0
  | [] => ⟨[], rfl, rfl⟩
  | t :: ts => by
    by_cases h : t.sym = 0
    · exact ⟨t :: ts, by simp [effective, h], h⟩
    · obtain ⟨r, h1, h2⟩ := effective_split ts
      refine ⟨r, ?_, h2⟩
      have : effective (t :: ts) = t :: effective ts := by simp [effective, h]
      rw [this, List.cons_append, ← h1]

/-! ### Acceptance -/

theorem parseString_policy {e : Expr} (hc : e.canon = true) (hv : e.valid = true) (s : Bytes)
    (he : effective (lex s) = e.toks) :
    parseString mk true s = (e.eval mk { input := s }).bind fun x => .ok (true, setPolicy x.2 x.1) := by
  obtain ⟨ts, h1, h2⟩ := effective_split (lex s)
  rw [he] at h1
  unfold parseString
  simp only [if_true, lex_prefix_policy, h1]
  refine run_policy hc hv _ h2 ?_
  have := e.steps_le
  simp [yyFuel]
  omega

theorem parseString_attrs {a : AExpr} (hc : a.canon = true) (hv : a.valid = true) (s : Bytes)
    (he : effective (lex s) = a.toks) :
    parseString mk false s = (a.eval mk { input := s, isPolicy := false }).bind fun x =>
      (setAttrlist x.2 x.1).bind fun d' => .ok (true, d') := by
  obtain ⟨ts, h1, h2⟩ := effective_split (lex s)
  rw [he] at h1
  unfold parseString
  simp only [Bool.false_eq_true, if_false, lex_prefix_attr, h1]
  refine run_attrs hc hv _ h2 ?_
  have := a.steps_le
  simp [yyFuel]
  omega

/-! ### Rejection -/

theorem parseString_policy_good (s : Bytes) : PGood mk true (.startPolicy :: lex s) (parseString mk true s) := by
  unfold parseString
  simp only [if_true, lex_prefix_policy]
  refine parse_good true _ rfl rfl rfl rfl _ ?_
  intro t ht
  rcases List.mem_cons.mp ht with rfl | ht
  · trivial
  · exact tokOk_of_lex ht

theorem parseString_attrs_good (s : Bytes) : PGood mk false (.startAttr :: lex s) (parseString mk false s) := by
  unfold parseString
  simp only [Bool.false_eq_true, if_false, lex_prefix_attr]
  refine parse_good false _ rfl rfl rfl rfl _ ?_
  intro t ht
  rcases List.mem_cons.mp ht with rfl | ht
  · trivial
  · exact tokOk_of_lex ht

theorem infix_cons_ne {α : Type} {x : α} {l s : List α} (hl : l ≠ []) (hx : l.head? ≠ some x) (h : l <:+: x :: s) :
    l <:+: s := by
  rcases List.infix_cons_iff.mp h with h | h
  · exfalso
    obtain ⟨r, hr⟩ := h
    cases l with
    | nil => exact hl rfl
    | cons y ys =>
      simp only [List.cons_append, List.cons.injEq] at hr
      exact hx (by simp [hr.1])
  · exact h

theorem CondSyn.head (c : CondSyn) : ∃ s r, c.toks = .leaf s :: r := by
  cases c <;> exact ⟨_, _, rfl⟩

/-- The parser on a text that is not in the grammar, or in which a date is out of range. -/
theorem createPolicyTree_cases (mk : Mktime) (s : Bytes) :
    (∃ e : Expr, e.valid = true ∧ e.canon = true ∧ effective (lex s) = e.toks) ∨
    createPolicyTree mk s = .ok none ∨
    (createPolicyTree mk s = .ub ∧ ∃ c : CondSyn, c.valid = true ∧ c.toks <:+: lex s ∧ c.BadDate mk) := by
  unfold createPolicyTree
  by_cases h0 : s = []
  · right; left; rw [if_pos h0]
  rw [if_neg h0]
  have hg := parseString_policy_good (mk := mk) s
  cases hp : parseString mk true s with
  | throw e => rw [hp] at hg; exact hg.elim
  | abort => rw [hp] at hg; exact hg.elim
  | ub =>
    rw [hp] at hg
    obtain ⟨c, h1, h2, h3⟩ := hg
    right; right
    obtain ⟨x, r, hx⟩ := c.head
    exact ⟨rfl, c, h1, infix_cons_ne (by simp [hx]) (by simp [hx]) h2, h3⟩
  | ok x =>
    obtain ⟨b, d⟩ := x
    rw [hp] at hg
    cases b with
    | false =>
      right; left
      have : d.policy = none := by simpa [PGood] using hg
      simp [this]
    | true =>
      left
      obtain ⟨ts, hts, ⟨e, he, hT⟩ | ⟨a, _, _, hT⟩⟩ := hg
      · obtain ⟨n1, n2, n3⟩ := e.norm_spec
        refine ⟨e.norm, by rw [n3]; exact he, n2, ?_⟩
        rw [n1]
        simp only [List.cons.injEq, true_and] at hT
        rw [hT]
        exact effective_append e.sym_ne hts
      · cases hT

theorem AExpr.head (a : AExpr) : ∃ t r, a.toks = t :: r := by
  induction a with
  | item i => cases i <;> exact ⟨_, _, rfl⟩
  | pre a _ => exact ⟨_, _, rfl⟩
  | post a ih => obtain ⟨t, r, h⟩ := ih; exact ⟨t, r ++ _, by simp [AExpr.toks, h]; rfl⟩
  | cat a b ih _ => obtain ⟨t, r, h⟩ := ih; exact ⟨t, r ++ _, by simp [AExpr.toks, h]; rfl⟩

/-- The same for attribute lists. -/
theorem createAttributeList_cases (mk : Mktime) (s : Bytes) :
    (∃ a : AExpr, a.valid = true ∧ a.canon = true ∧ effective (lex s) = a.toks) ∨
    createAttributeList mk s = .ok none ∨
    (createAttributeList mk s = .ub ∧ ∃ c : CondSyn, c.valid = true ∧ c.toks <:+: lex s ∧ c.BadDate mk) := by
  unfold createAttributeList
  by_cases h0 : s = []
  · right; left; rw [if_pos h0]
  rw [if_neg h0]
  have hg := parseString_attrs_good (mk := mk) s
  cases hp : parseString mk false s with
  | throw e => rw [hp] at hg; exact hg.elim
  | abort => rw [hp] at hg; exact hg.elim
  | ub =>
    rw [hp] at hg
    obtain ⟨c, h1, h2, h3⟩ := hg
    right; right
    obtain ⟨x, r, hx⟩ := c.head
    exact ⟨rfl, c, h1, infix_cons_ne (by simp [hx]) (by simp [hx]) h2, h3⟩
  | ok x =>
    obtain ⟨b, d⟩ := x
    rw [hp] at hg
    cases b with
    | false =>
      right; left
      have : d.attrs = none := by simpa [PGood] using hg
      simp [this]
    | true =>
      left
      obtain ⟨ts, hts, ⟨e, he, hT⟩ | ⟨a, ha, hc, hT⟩⟩ := hg
      · cases hT
      · refine ⟨a, ha, hc, ?_⟩
        simp only [List.cons.injEq, true_and] at hT
        rw [hT]
        exact effective_append a.sym_ne hts

end Abe
