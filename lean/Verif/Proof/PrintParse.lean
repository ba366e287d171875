import Verif.Proof.LexText
/-! # Printing and parsing again -/
set_option linter.unusedSimpArgs false
set_option linter.unusedSectionVars false
set_option autoImplicit false
namespace Abe
variable {mk : Mktime}

/-! ### Policies -/

/-- The same formula with every gate in parentheses and no others. -/
def Expr.full : Expr → Expr
  | .leaf s => .leaf s
  | .cond c => .cond c
  | .paren e => e.full
  | .or l r => .paren (.or l.full r.full)
  | .and l r => .paren (.and l.full r.full)

theorem Expr.full_top : ∀ e : Expr, e.full.isOr = false ∧ e.full.isAnd = false
  | .leaf _ => ⟨rfl, rfl⟩
  | .cond _ => ⟨rfl, rfl⟩
  | .paren e => e.full_top
  | .or _ _ => ⟨rfl, rfl⟩
  | .and _ _ => ⟨rfl, rfl⟩

theorem Expr.full_canon : ∀ e : Expr, e.full.canon = true
  | .leaf _ => rfl
  | .cond _ => rfl
  | .paren e => e.full_canon
  | .or l r => by simp [Expr.full, Expr.canon, l.full_canon, r.full_canon, (r.full_top).1]
  | .and l r => by
    simp [Expr.full, Expr.canon, l.full_canon, r.full_canon, (l.full_top).1, (r.full_top).1, (r.full_top).2]

theorem Expr.full_valid : ∀ e : Expr, e.full.valid = e.valid
  | .leaf _ => rfl
  | .cond _ => rfl
  | .paren e => e.full_valid
  | .or l r => by simp [Expr.full, Expr.valid, l.full_valid, r.full_valid]
  | .and l r => by simp [Expr.full, Expr.valid, l.full_valid, r.full_valid]

theorem Expr.full_conds : ∀ e : Expr, e.full.conds = e.conds
  | .leaf _ => rfl
  | .cond _ => rfl
  | .paren e => e.full_conds
  | .or l r => by simp [Expr.full, Expr.conds, l.full_conds, r.full_conds]
  | .and l r => by simp [Expr.full, Expr.conds, l.full_conds, r.full_conds]

theorem Expr.full_eval : ∀ (e : Expr) (d : Drv), e.full.eval mk d = e.eval mk d
  | .leaf _, _ => rfl
  | .cond _, _ => rfl
  | .paren e, d => e.full_eval d
  | .or l r, d => by simp only [Expr.full, Expr.eval, l.full_eval, r.full_eval]
  | .and l r, d => by simp only [Expr.full, Expr.eval, l.full_eval, r.full_eval]

theorem leafNode_leaf {d d' : Drv} {c : Bytes} {t : TNode} (h : leafNode d c = .ok (t, d')) :
    ∃ p a i, checkAttribute c = .ok (p, a) ∧ t = .leaf {} p a (some i) := by
  unfold leafNode at h
  obtain ⟨pa, hpa, h'⟩ := (Res.bind_eq_ok _ _ _).mp h
  cases hf : SMap.find c d.attrCount with
  | none => rw [hf] at h'; cases h'; exact ⟨_, _, _, hpa, rfl⟩
  | some n => rw [hf] at h'; cases h'; exact ⟨_, _, _, hpa, rfl⟩

/-- The printed tree is the fully parenthesised formula. -/
theorem Expr.str_lex : ∀ (e : Expr) (d d' : Drv) (t : TNode), e.conds = [] → (∀ t ∈ e.toks, TokOk t) →
    (∀ s ∈ e.plain, PlainOk s) → e.eval mk d = .ok (t, d') → lex t.str = e.full.toks
  | .leaf s, d, d', t, _, ht, hn, h => by
    have hs : isName s = true := ht (.leaf s) (by simp [Expr.toks])
    obtain ⟨p, a, i, hc, rfl⟩ := leafNode_leaf h
    obtain ⟨p', a', hc', hl⟩ := checkAttribute_canon ((hn s (by simp [Expr.plain])).canon (name_ne_nil hs))
    rw [hc] at hc'
    cases hc'
    simp only [TNode.str]
    rw [hl, lex_name' hs]
    rfl
  | .cond c, _, _, _, hc, _, _, _ => by simp [Expr.conds] at hc
  | .paren e, d, d', t, hc, ht, hn, h =>
    e.str_lex d d' t hc (fun t h => ht t (by simp [Expr.toks, h])) hn h
  | .or l r, d, d', t, hc, ht, hn, h => by
    simp only [Expr.conds, List.append_eq_nil_iff] at hc
    simp only [Expr.eval] at h
    obtain ⟨x, hx, h1⟩ := (Res.bind_eq_ok _ _ _).mp h
    obtain ⟨y, hy, h2⟩ := (Res.bind_eq_ok _ _ _).mp h1
    simp only [Res.ok.injEq, Prod.mk.injEq] at h2
    obtain ⟨rfl, rfl⟩ := h2
    have il := l.str_lex d x.2 x.1 hc.1 (fun t h => ht t (by simp [Expr.toks, h])) (fun s h => hn s (by simp [Expr.plain, h])) hx
    have ir := r.str_lex x.2 y.2 y.1 hc.2 (fun t h => ht t (by simp [Expr.toks, h])) (fun s h => hn s (by simp [Expr.plain, h])) hy
    have e : (kof2 1 x.1 y.1).str = 40 :: (x.1.str ++ 32 :: (b!"or " ++ (y.1.str ++ 41 :: []))) := by
      simp [kof2, TNode.str, strL]
    rw [e, lex_open, lex_stop_space, lex_or, lex_stop_close, il, ir]
    simp [Expr.full, Expr.toks, lex_nil]
  | .and l r, d, d', t, hc, ht, hn, h => by
    simp only [Expr.conds, List.append_eq_nil_iff] at hc
    simp only [Expr.eval] at h
    obtain ⟨x, hx, h1⟩ := (Res.bind_eq_ok _ _ _).mp h
    obtain ⟨y, hy, h2⟩ := (Res.bind_eq_ok _ _ _).mp h1
    simp only [Res.ok.injEq, Prod.mk.injEq] at h2
    obtain ⟨rfl, rfl⟩ := h2
    have il := l.str_lex d x.2 x.1 hc.1 (fun t h => ht t (by simp [Expr.toks, h])) (fun s h => hn s (by simp [Expr.plain, h])) hx
    have ir := r.str_lex x.2 y.2 y.1 hc.2 (fun t h => ht t (by simp [Expr.toks, h])) (fun s h => hn s (by simp [Expr.plain, h])) hy
    have e : (kof2 2 x.1 y.1).str = 40 :: (x.1.str ++ 32 :: (b!"and " ++ (y.1.str ++ 41 :: []))) := by
      simp [kof2, TNode.str, strL]
    rw [e, lex_open, lex_stop_space, lex_and, lex_stop_close, il, ir]
    simp [Expr.full, Expr.toks, lex_nil]

/-- The remembered input plays no part in building the tree. -/
theorem leafNode_input (d : Drv) (c x : Bytes) : leafNode { d with input := x } c =
    (leafNode d c).bind fun r => .ok (r.1, { r.2 with input := x }) := by
  unfold leafNode
  cases checkAttribute c with
  | ok pa =>
    simp only [Res.ok_bind, Res.bind]
    cases SMap.find c d.attrCount <;> (simp only; split <;> rfl)
  | throw e => rfl
  | ub => rfl
  | abort => rfl

/-- The result with another remembered input. -/
def withInput (x : Bytes) (r : Res (TNode × Drv)) : Res (TNode × Drv) :=
  r.bind fun y => .ok (y.1, { y.2 with input := x })

theorem bind_withInput (x : Bytes) (r : Res (TNode × Drv)) (f g : TNode × Drv → Res (TNode × Drv))
    (h : ∀ t d, g (t, { d with input := x }) = withInput x (f (t, d))) :
    (withInput x r).bind g = withInput x (r.bind f) := by
  cases r with
  | ok y => exact h y.1 y.2
  | throw e => rfl
  | ub => rfl
  | abort => rfl

theorem bitLoop_input (fx gt : Bool) (attr : Bytes) (bits v : Nat) (x : Bytes) : ∀ (n i : Nat) (p : TNode) (d : Drv),
    bitLoop fx gt attr bits v n i p { d with input := x } = withInput x (bitLoop fx gt attr bits v n i p d)
  | 0, _, _, _ => rfl
  | n + 1, i, p, d => by
    simp only [bitLoop]
    split
    · rfl
    · rw [leafNode_input]
      exact bind_withInput x _ _ _ fun t d => bitLoop_input fx gt attr bits v x n _ _ d

theorem cmpPolicy_input (d : Drv) (n : UInteger) (gt : Bool) (attr x : Bytes) :
    cmpPolicy { d with input := x } n gt attr = withInput x (cmpPolicy d n gt attr) := by
  simp only [cmpPolicy, bitMarkerList]
  split
  · rfl
  · rw [leafNode_input]
    exact bind_withInput x _ _ _ fun t d => bitLoop_input _ _ _ _ _ x _ _ _ d

theorem eqLoop_input (fx : Bool) (c : Bytes) (bc v : Nat) (x : Bytes) : ∀ (i : Nat) (p : TNode) (d : Drv),
    eqLoop fx c bc v i p { d with input := x } = withInput x (eqLoop fx c bc v i p d)
  | 0, _, _ => rfl
  | i + 1, p, d => by
    simp only [eqLoop]
    rw [leafNode_input]
    exact bind_withInput x _ _ _ fun t d => eqLoop_input fx c bc v x i _ d

theorem compile_input (c : NumCond) (d : Drv) (base x : Bytes) :
    c.compile { d with input := x } base = withInput x (c.compile d base) := by
  cases c with
  | lt n => exact cmpPolicy_input d n false base x
  | gt n => exact cmpPolicy_input d n true base x
  | le n => exact cmpPolicy_input d n.add1 false base x
  | ge n => exact cmpPolicy_input d n.sub1 true base x
  | eq n =>
    simp only [NumCond.compile, eqPolicy]
    rw [leafNode_input]
    exact bind_withInput x _ _ _ fun t d => eqLoop_input _ _ _ _ x _ _ d
  | inOpen lo hi =>
    simp only [NumCond.compile, rangePolicy, gtPolicy, ltPolicy, cmpPolicy_input]
    refine bind_withInput x _ _ _ fun t d => ?_
    simp only [cmpPolicy_input]
    exact bind_withInput x _ _ _ fun t d => rfl
  | inClosed lo hi =>
    simp only [NumCond.compile, rangeInclPolicy, gePolicy, lePolicy, cmpPolicy_input]
    refine bind_withInput x _ _ _ fun t d => ?_
    simp only [cmpPolicy_input]
    exact bind_withInput x _ _ _ fun t d => rfl

theorem Expr.eval_input (x : Bytes) : ∀ (e : Expr) (d : Drv),
    e.eval mk { d with input := x } = withInput x (e.eval mk d)
  | .leaf s, d => leafNode_input d s x
  | .cond c, d => compile_input _ d _ x
  | .paren e, d => e.eval_input x d
  | .or l r, d => by
    simp only [Expr.eval]
    rw [l.eval_input x d]
    refine bind_withInput x _ _ _ fun t d => ?_
    simp only [r.eval_input x d]
    exact bind_withInput x _ _ _ fun t d => rfl
  | .and l r, d => by
    simp only [Expr.eval]
    rw [l.eval_input x d]
    refine bind_withInput x _ _ _ fun t d => ?_
    simp only [r.eval_input x d]
    exact bind_withInput x _ _ _ fun t d => rfl

theorem effective_self {l : List Tok} (h : ∀ t ∈ l, t.sym ≠ 0) : effective l = l := by
  have := effective_append (ts := []) h rfl
  simpa using this

/-! ### Texts without control bytes -/

theorem chr_sym_ne : ∀ b : UInt8, b ≠ 0 → b < 128 → (Tok.chr b).sym ≠ 0 := forall_uint8 (by decide +kernel)

/-- Every token of a text without NUL and non-ASCII bytes reaches the parser. -/
theorem lex_sym_ne : ∀ (n : Nat) (s : Bytes), s.length ≤ n → (∀ b ∈ s, b ≠ 0 ∧ b < 128) → ∀ t ∈ lex s, t.sym ≠ 0
  | _, [], _, _ => by simp [lex_nil]
  | 0, b :: s, h, _ => by simp at h
  | n + 1, b :: s, h, hb => by
    have hs : s.length ≤ n := by simpa using h
    have sub : ∀ r : Bytes, r <:+ s → ∀ t ∈ lex r, t.sym ≠ 0 := fun r hr =>
      lex_sym_ne n r (Nat.le_trans hr.length_le hs) (fun c hc => hb c (by simp [hr.subset hc]))
    have hl : ∀ x, (actLeaf x).sym ≠ 0 := by
      intro x; unfold actLeaf; repeat' (first | (simp [Tok.sym]; done) | split)
    have hu : ∀ x, (actUint x).sym ≠ 0 := by
      intro x; unfold actUint; repeat' (first | (simp [Tok.sym]; done) | split)
    have ho : ∀ x, (actOp x).sym ≠ 0 := by
      intro x; unfold actOp; repeat' (first | (simp [Tok.sym]; done) | split)
    intro t ht
    rw [lex_cons] at ht
    split at ht
    · exact sub _ (List.dropWhile_suffix _) t ht
    split at ht
    · rcases List.mem_cons.mp ht with rfl | ht
      · simp [Tok.sym]
      · exact sub _ (List.suffix_refl _) t ht
    split at ht
    · rcases List.mem_cons.mp ht with rfl | ht
      · exact hl _
      · exact sub _ (List.dropWhile_suffix _) t ht
    split at ht
    · rcases List.mem_cons.mp ht with rfl | ht
      · exact hu _
      · exact sub _ (List.dropWhile_suffix _) t ht
    split at ht
    · rcases List.mem_cons.mp ht with rfl | ht
      · exact ho _
      · exact sub _ (List.tail_suffix _) t ht
    · rcases List.mem_cons.mp ht with rfl | ht
      · exact chr_sym_ne b (hb b (by simp)).1 (hb b (by simp)).2
      · exact sub _ (List.suffix_refl _) t ht

theorem effective_clean {s : Bytes} (h : ∀ b ∈ s, b ≠ 0 ∧ b < 128) : effective (lex s) = lex s :=
  effective_self (lex_sym_ne s.length s (Nat.le_refl _) h)

end Abe
