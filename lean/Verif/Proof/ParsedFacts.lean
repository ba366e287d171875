import Verif.Proof.Compact
/-! # Everything known about a parsed policy -/
set_option linter.unusedSimpArgs false
set_option linter.unusedSectionVars false
set_option autoImplicit false
namespace Abe
variable {mk : Mktime}

theorem msuf_no37 : ∀ w ∈ [4, 8, 16, 32], ∀ bit, bit < 32 → ∀ v : Bool, (37 : UInt8) ∉ msuf w bit v := by
  decide +kernel

theorem dup_eq {p : Policy} {c : SMap Nat} {l : List Bytes} (h1 : p.hasDup = decide (l ≠ [])) (h2 : p.dupCount = dupInfo c l) :
    (if p.hasDup then p.dupCount else []) = dupInfo c l := by
  rw [h1, h2]
  cases l <;> simp [dupInfo]

/-- What the parser makes of a policy text. -/
theorem parsed {s : Bytes} {e : Expr} (h : PolicyText mk s e) : ∃ p t d', createPolicyTree mk s = .ok (some p) ∧
    p.root = some t ∧ e.eval mk { input := s } = .ok (t, d') ∧ AndOr t ∧ BinAnd t ∧ Fresh t ∧
    (∀ l ∈ leaves t, l.idx.isSome) ∧ Numbered (if p.hasDup then p.dupCount else []) (leaves t) ∧
    (∀ l ∈ leaves t, e.Text l.label) ∧ p.compact = s ∧ p.revocation = false ∧ (∀ t ∈ e.toks, TokOk t) := by
  obtain ⟨t, d', p, h1, h2, h3, h4, h5, _, _, h8, h9, h10⟩ := createPolicyTree_ok mk h.canon h.valid h.toks h.dates
  obtain ⟨cs, hb, hcs⟩ := e.eval_built _ _ _ h.valid h2
  obtain ⟨ha, hbin, hf, _, hi⟩ := built_shape hb
  have hcan : ∀ c ∈ cs, canonAux true c = true := fun c hc => e.text_canon h10 h.names (hcs c hc)
  obtain ⟨hn, hl, _⟩ := numbered_of_built hb hcan
  refine ⟨p, t, d', h1, h3, h2, ha, hbin, hf, hi, ?_, ?_, h8, h9, h10⟩
  · rw [dup_eq h4 h5]; exact hn
  · intro l hl'
    exact hcs _ (hl (List.mem_map_of_mem (f := Leaf.label) hl'))

theorem Expr.NoPercent.label {e : Expr} (h : e.NoPercent) {c : Bytes} (hc : e.Text c) : (37 : UInt8) ∉ c := by
  rcases hc with hc | ⟨s, hs, w, i, b, hw, hi, rfl⟩
  · exact h.1 c hc
  · rw [List.mem_append, not_or]
    exact ⟨h.2 s hs, msuf_no37 w hw.mem i hi b⟩

theorem Expr.NoPercent.unnumbered {e : Expr} (h : e.NoPercent) : e.Unnumbered := by
  intro x i hx
  refine absurd ?_ (h.1 _ hx)
  have e37 : (b!"%" : Bytes) = [37] := by decide
  simp [e37]

theorem msuf_head (w bit : Nat) (v : Bool) : b!"_expint" <+: msuf w bit v := by
  unfold msuf
  exact ⟨_, by simp only [List.append_assoc]; rfl⟩

/-- A marker is never a text followed by `%` and a number. -/
theorem marker_not_numbered {w i : Nat} (hw : w ∈ [4, 8, 16, 32]) (hi : i < 32) (b : Bool) (base x : Bytes) (n : Nat) :
    base ++ msuf w i b ≠ x ++ b!"%" ++ natDec n := by
  intro he
  have e37 : (b!"%" : Bytes) = [37] := by decide
  rw [e37, List.append_assoc] at he
  have h1 : msuf w i b <:+ base ++ msuf w i b := ⟨base, rfl⟩
  have h2 : [37] ++ natDec n <:+ base ++ msuf w i b := ⟨x, he.symm⟩
  rcases Nat.le_total ([37] ++ natDec n).length (msuf w i b).length with hl | hl
  · have := List.suffix_of_suffix_length_le h2 h1 hl
    exact msuf_no37 w hw i hi b (this.subset (by simp))
  · have := List.suffix_of_suffix_length_le h1 h2 hl
    have h95 : (95 : UInt8) ∈ [37] ++ natDec n := this.subset ((msuf_head w i b).subset (by decide))
    simp only [List.singleton_append, List.mem_cons] at h95
    rcases h95 with h | h
    · cases h
    · have := (natDec_digits n _ h).2
      have e : (95 : UInt8).toNat = 95 := rfl
      omega

theorem Expr.Unnumbered.labels {e : Expr} (h : e.Unnumbered) {ls : List Leaf} (hl : ∀ l ∈ ls, e.Text l.label) : NoNumbered ls := by
  intro a ha b hb i he
  rcases hl b hb with hb | ⟨s, hs, w, j, v, hw, hj, hb⟩
  · rw [he] at hb
    obtain ⟨h1, h2⟩ := h _ _ hb
    rcases hl a ha with ha | ⟨s, hs, w, j, v, hw, hj, ha⟩
    · exact h1 ha
    · refine h2 s hs ?_
      rw [ha]
      exact (List.prefix_append_right_inj _).mpr (msuf_head w j v)
  · rw [hb] at he
    exact marker_not_numbered hw.mem hj v _ _ _ he

theorem listed {l : Bytes} {a : AExpr} (h : ListText mk l a) : ∃ al, createAttributeList mk l = .ok (some al) ∧
    al.attrs = contrib (Item.strings mk) [] a.items ∧ ∀ t ∈ a.toks, TokOk t := by
  obtain ⟨al, h1, h2, _, h3⟩ := createAttributeList_ok mk h.canon h.valid h.toks
  exact ⟨al, h1, h2, h3⟩

/-- Effective tokens when more text follows a NUL. -/
theorem effective_nul (l r : List Tok) : effective (l ++ .chr 0 :: r) = effective l := by
  have e : effective (Tok.chr 0 :: r) = [] := by
    have : (Tok.chr 0).sym = 0 := by decide
    simp [effective, this]
  induction l with
  | nil => rw [List.nil_append, e]; rfl
  | cons t l ih =>
    by_cases ht : t.sym = 0
    · simp [effective, ht]
    · simp only [effective, List.cons_append, List.takeWhile_cons, ht, ne_eq, not_false_eq_true, decide_true, if_true]
      exact congrArg _ ih

theorem createPolicyTree_congr {s s' : Bytes} {e : Expr} (hc : e.canon = true) (hv : e.valid = true)
    (he : effective (lex s) = e.toks) (he' : effective (lex s') = e.toks) (hd : e.DatesOk mk) :
    ∃ p, createPolicyTree mk s = .ok (some p) ∧ createPolicyTree mk s' = .ok (some { p with compact := s' }) := by
  obtain ⟨t, d, p, h1, h2, h3, h4, h5, h6, h7, h8, h9, _⟩ := createPolicyTree_ok mk hc hv he hd
  obtain ⟨t', d', p', g1, g2, g3, g4, g5, g6, g7, g8, g9, _⟩ := createPolicyTree_ok mk hc hv he' hd
  have hin := e.eval_input (mk := mk) s' { input := s }
  rw [h2] at hin
  have g2' : e.eval mk { input := s' } = .ok (t, { d with input := s' }) := hin
  rw [g2] at g2'
  simp only [Res.ok.injEq, Prod.mk.injEq] at g2'
  obtain ⟨rfl, rfl⟩ := g2'
  refine ⟨p, h1, ?_⟩
  rw [g1]
  congr 2
  cases p; cases p'
  simp_all

/-- The parser accepts only what the grammar derives. -/
theorem accepted {s : Bytes} {p : Policy} (h : createPolicyTree mk s = .ok (some p)) :
    ∃ e : Expr, e.valid = true ∧ e.canon = true ∧ effective (lex s) = e.toks := by
  rcases createPolicyTree_cases mk s with hc | hc | hc
  · exact hc
  · rw [hc] at h; cases h
  · rw [hc.1] at h; cases h

theorem accepted_list {s : Bytes} {al : AttrList} (h : createAttributeList mk s = .ok (some al)) :
    ∃ a : AExpr, a.valid = true ∧ a.canon = true ∧ effective (lex s) = a.toks := by
  rcases createAttributeList_cases mk s with hc | hc | hc
  · exact hc
  · rw [hc] at h; cases h
  · rw [hc.1] at h; cases h

theorem effective_prefix (s : Bytes) : effective (lex s) <:+: lex s :=
  (List.takeWhile_prefix _).isInfix

theorem Expr.conds_infix : ∀ (e : Expr), ∀ c ∈ e.conds, c.toks <:+: e.toks
  | .leaf _ => by simp [Expr.conds]
  | .cond c => by simp [Expr.conds, Expr.toks]
  | .paren e => fun c hc => by
    obtain ⟨x, y, h⟩ := e.conds_infix c hc
    exact ⟨.chr 40 :: x, y ++ [.chr 41], by simp [Expr.toks, ← h]⟩
  | .or l r => fun c hc => by
    simp only [Expr.conds, List.mem_append] at hc
    rcases hc with hc | hc
    · obtain ⟨x, y, h⟩ := l.conds_infix c hc
      exact ⟨x, y ++ .or :: r.toks, by simp [Expr.toks, ← h]⟩
    · obtain ⟨x, y, h⟩ := r.conds_infix c hc
      exact ⟨l.toks ++ .or :: x, y, by simp [Expr.toks, ← h]⟩
  | .and l r => fun c hc => by
    simp only [Expr.conds, List.mem_append] at hc
    rcases hc with hc | hc
    · obtain ⟨x, y, h⟩ := l.conds_infix c hc
      exact ⟨x, y ++ .and :: r.toks, by simp [Expr.toks, ← h]⟩
    · obtain ⟨x, y, h⟩ := r.conds_infix c hc
      exact ⟨l.toks ++ .and :: x, y, by simp [Expr.toks, ← h]⟩

theorem Expr.conds_valid : ∀ (e : Expr), e.valid = true → ∀ c ∈ e.conds, c.valid = true
  | .leaf _, _ => by simp [Expr.conds]
  | .cond c, h => by intro x hx; simp only [Expr.conds, List.mem_singleton] at hx; subst hx; exact h
  | .paren e, h => e.conds_valid h
  | .or l r, h => by
    simp only [Expr.valid, Bool.and_eq_true] at h
    intro c hc
    simp only [Expr.conds, List.mem_append] at hc
    exact hc.elim (l.conds_valid h.1 c) (r.conds_valid h.2 c)
  | .and l r, h => by
    simp only [Expr.valid, Bool.and_eq_true] at h
    intro c hc
    simp only [Expr.conds, List.mem_append] at hc
    exact hc.elim (l.conds_valid h.1 c) (r.conds_valid h.2 c)

theorem datesOk_of_text {s : Bytes} {e : Expr} (h : NoBadDates mk s) (hv : e.valid = true)
    (he : effective (lex s) = e.toks) : e.DatesOk mk := by
  intro c hc
  refine h c (e.conds_valid hv c hc) ?_
  exact (e.conds_infix c hc).trans (he ▸ effective_prefix s)

/-- The policy made from a tree and the final driver. -/
def builtPolicy (d : Drv) (t : TNode) : Policy :=
  { root := some t, hasDup := decide (d.attrDup ≠ []), dupCount := dupInfo d.attrCount d.attrDup,
    completeSet := SMap.keys d.attrCount, prefixSet := d.attrPrefix, compact := d.input }

/-- An accepted text, without any assumption on dates. -/
theorem accepted_eval {s : Bytes} {p : Policy} (h : createPolicyTree mk s = .ok (some p)) :
    ∃ (e : Expr) (t : TNode) (d' : Drv), e.valid = true ∧ e.canon = true ∧ effective (lex s) = e.toks ∧
      e.eval mk { input := s } = .ok (t, d') ∧ p = builtPolicy d' t := by
  obtain ⟨e, hv, hc, he⟩ := accepted h
  unfold createPolicyTree at h
  split at h
  · cases h
  · rw [parseString_policy hc hv s he] at h
    cases hev : e.eval mk { input := s } with
    | ok x =>
      rw [hev] at h
      simp only [Res.bind, Res.ok.injEq] at h
      exact ⟨e, x.1, x.2, hv, hc, he, hev, (Option.some.inj h).symm⟩
    | throw er => rw [hev] at h; cases h
    | ub => rw [hev] at h; cases h
    | abort => rw [hev] at h; cases h

theorem policy_of_eval {s : Bytes} {e : Expr} {t : TNode} {d' : Drv} (hc : e.canon = true) (hv : e.valid = true)
    (he : effective (lex s) = e.toks) (h : e.eval mk { input := s } = .ok (t, d')) :
    createPolicyTree mk s = .ok (some (builtPolicy d' t)) := by
  have hs : s ≠ [] := by
    rintro rfl
    rw [lex_nil] at he
    have : e.toks ≠ [] := by
      intro h
      have := e.steps_le
      rw [h] at this
      simp at this
    exact this he.symm
  unfold createPolicyTree
  rw [if_neg hs, parseString_policy hc hv s he, h]
  rfl

end Abe
