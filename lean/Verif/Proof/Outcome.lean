import Verif.Spec.Undefined
import Verif.Proof.AttrList
import Verif.Proof.ParsedFacts
import Verif.Proof.ParserHeapRun

set_option linter.unusedSimpArgs false
set_option linter.unusedSectionVars false
set_option autoImplicit false

/-! Outcomes of the parser: which conditions have none, and that attribute lists always have one. -/

namespace Abe
open PH

/-! ### Conditions on numbers -/

/-- The values for which that is so. -/
def NumCond.Edge : NumCond → Prop
  | .lt n => n.val.toNat = 0
  | .gt n => n.val.toNat = 2 ^ 32 - 1
  | .le n => n.val.toNat = 2 ^ 32 - 1
  | .ge n => n.val.toNat = 0
  | .eq _ => False
  | .inOpen lo hi => lo.val.toNat = 2 ^ 32 - 1 ∨ hi.val.toNat = 0
  | .inClosed lo hi => lo.val.toNat = 0 ∨ hi.val.toNat = 2 ^ 32 - 1

theorem trivial_lt {n : UInteger} : (NumCond.lt n).Trivial ↔ n.val.toNat = 0 := by
  have := n.val.toNat_lt
  constructor
  · rintro (h | h)
    · have := h (2 ^ 32 - 1) (by omega); simp only [NumCond.holds] at this; omega
    · have := h 0 (by omega); simp only [NumCond.holds] at this; omega
  · intro h; right; intro v _; simp only [NumCond.holds]; omega

theorem trivial_gt {n : UInteger} : (NumCond.gt n).Trivial ↔ n.val.toNat = 2 ^ 32 - 1 := by
  have := n.val.toNat_lt
  constructor
  · rintro (h | h)
    · have := h 0 (by omega); simp only [NumCond.holds] at this; omega
    · have := h (2 ^ 32 - 1) (by omega); simp only [NumCond.holds] at this; omega
  · intro h; right; intro v _; simp only [NumCond.holds]; omega

theorem trivial_le {n : UInteger} : (NumCond.le n).Trivial ↔ n.val.toNat = 2 ^ 32 - 1 := by
  have := n.val.toNat_lt
  constructor
  · rintro (h | h)
    · have := h (2 ^ 32 - 1) (by omega); simp only [NumCond.holds] at this; omega
    · have := h 0 (by omega); simp only [NumCond.holds] at this; omega
  · intro h; left; intro v _; simp only [NumCond.holds]; omega

theorem trivial_ge {n : UInteger} : (NumCond.ge n).Trivial ↔ n.val.toNat = 0 := by
  have := n.val.toNat_lt
  constructor
  · rintro (h | h)
    · have := h 0 (by omega); simp only [NumCond.holds] at this; omega
    · have := h (2 ^ 32 - 1) (by omega); simp only [NumCond.holds] at this; omega
  · intro h; left; intro v _; simp only [NumCond.holds]; omega

theorem undefined_iff (c : NumCond) : c.Undefined ↔ c.Edge := by
  cases c <;> simp [NumCond.Undefined, NumCond.comparisons, NumCond.Edge, trivial_lt, trivial_gt, trivial_le, trivial_ge]

theorem cmpPolicy_ub (d : Drv) (base : Bytes) {w : Nat} (gt : Bool) :
    cmpPolicy d ⟨if gt then 0xffffffff else 0, w⟩ gt base = .ub := by
  have h : runEnd gt (if gt then 0xffffffff else 0 : UInt32).toNat 32 0 = none := by cases gt <;> decide +kernel
  simp only [cmpPolicy, bitMarkerList, h]

theorem cmpPolicy_total (d : Drv) (base : Bytes) {n : UInteger} (hw : Width n.bits) (gt : Bool) :
    (n.val = (if gt then 0xffffffff else 0) ∧ cmpPolicy d n gt base = .ub) ∨
    (n.val ≠ (if gt then 0xffffffff else 0) ∧ ∃ t d', cmpPolicy d n gt base = .ok (t, d')) := by
  obtain ⟨v, w⟩ := n
  by_cases h : v = if gt then 0xffffffff else 0
  · subst h
    exact Or.inl ⟨rfl, cmpPolicy_ub d base gt⟩
  · exact Or.inr ⟨h, cmpPolicy_ok d base hw v gt h⟩

theorem u32_zero {x : UInt32} : x = 0 ↔ x.toNat = 0 := by
  rw [← UInt32.toNat_inj]; rfl

theorem u32_max {x : UInt32} : x = 0xffffffff ↔ x.toNat = 2 ^ 32 - 1 := by
  rw [← UInt32.toNat_inj]; rfl

theorem u32_add1 {x : UInt32} : x + 1 = 0 ↔ x.toNat = 2 ^ 32 - 1 := by
  rw [← UInt32.toNat_inj, UInt32.toNat_add]
  have := x.toNat_lt
  simp
  omega

theorem u32_sub1 {x : UInt32} : x - 1 = 0xffffffff ↔ x.toNat = 0 := by
  rw [← UInt32.toNat_inj, UInt32.toNat_sub]
  have := x.toNat_lt
  simp
  omega

/-- Compiling a condition returns exactly if the condition is not one of the undefined ones. -/
theorem compile_total (d : Drv) (base : Bytes) (c : NumCond) (hn : ∀ n ∈ c.nums, Width n.bits) :
    (c.Undefined ∧ c.compile d base = .ub) ∨ (¬ c.Undefined ∧ ∃ t d', c.compile d base = .ok (t, d')) := by
  rw [undefined_iff]
  have hlt : ∀ (d : Drv) (n : UInteger), Width n.bits → (n.val.toNat = 0 ∧ ltPolicy d base n = .ub) ∨
      (n.val.toNat ≠ 0 ∧ ∃ t d', ltPolicy d base n = .ok (t, d')) := fun d n h => by
    have := cmpPolicy_total d base h false
    simpa only [Bool.false_eq_true, if_false, ne_eq, u32_zero, ltPolicy] using this
  have hgt : ∀ (d : Drv) (n : UInteger), Width n.bits → (n.val.toNat = 2 ^ 32 - 1 ∧ gtPolicy d base n = .ub) ∨
      (n.val.toNat ≠ 2 ^ 32 - 1 ∧ ∃ t d', gtPolicy d base n = .ok (t, d')) := fun d n h => by
    have := cmpPolicy_total d base h true
    simpa only [if_true, ne_eq, u32_max, gtPolicy] using this
  have hle : ∀ (d : Drv) (n : UInteger), Width n.bits → (n.val.toNat = 2 ^ 32 - 1 ∧ lePolicy d base n = .ub) ∨
      (n.val.toNat ≠ 2 ^ 32 - 1 ∧ ∃ t d', lePolicy d base n = .ok (t, d')) := fun d n h => by
    have := cmpPolicy_total d base (n := n.add1) h false
    simpa only [Bool.false_eq_true, if_false, ne_eq, UInteger.add1, u32_add1, lePolicy] using this
  have hge : ∀ (d : Drv) (n : UInteger), Width n.bits → (n.val.toNat = 0 ∧ gePolicy d base n = .ub) ∨
      (n.val.toNat ≠ 0 ∧ ∃ t d', gePolicy d base n = .ok (t, d')) := fun d n h => by
    have := cmpPolicy_total d base (n := n.sub1) h true
    simpa only [if_true, ne_eq, UInteger.sub1, u32_sub1, gePolicy] using this
  cases c with
  | lt n => exact hlt d n (hn n (by simp [NumCond.nums]))
  | gt n => exact hgt d n (hn n (by simp [NumCond.nums]))
  | le n => exact hle d n (hn n (by simp [NumCond.nums]))
  | ge n => exact hge d n (hn n (by simp [NumCond.nums]))
  | eq n =>
    refine Or.inr ⟨id, eqPolicy_ok d base ?_ n.val⟩
    have := hn n (by simp [NumCond.nums])
    rcases this with h | h | h | h <;> omega
  | inOpen lo hi =>
    rcases hgt d lo (hn lo (by simp [NumCond.nums])) with ⟨h, h1⟩ | ⟨h, t1, d1, h1⟩
    · exact Or.inl ⟨Or.inl h, by simp only [NumCond.compile, rangePolicy, h1]; rfl⟩
    · rcases hlt d1 hi (hn hi (by simp [NumCond.nums])) with ⟨h', h2⟩ | ⟨h', t2, d2, h2⟩
      · exact Or.inl ⟨Or.inr h', by simp only [NumCond.compile, rangePolicy, h1, Res.ok_bind, h2]; rfl⟩
      · exact Or.inr ⟨fun x => x.elim h h', .gate {} .and 2 [t1, t2], d2,
          by simp only [NumCond.compile, rangePolicy, h1, h2, Res.ok_bind]⟩
  | inClosed lo hi =>
    rcases hge d lo (hn lo (by simp [NumCond.nums])) with ⟨h, h1⟩ | ⟨h, t1, d1, h1⟩
    · exact Or.inl ⟨Or.inl h, by simp only [NumCond.compile, rangeInclPolicy, h1]; rfl⟩
    · rcases hle d1 hi (hn hi (by simp [NumCond.nums])) with ⟨h', h2⟩ | ⟨h', t2, d2, h2⟩
      · exact Or.inl ⟨Or.inr h', by simp only [NumCond.compile, rangeInclPolicy, h1, Res.ok_bind, h2]; rfl⟩
      · exact Or.inr ⟨fun x => x.elim h h', .gate {} .and 2 [t1, t2], d2,
          by simp only [NumCond.compile, rangeInclPolicy, h1, h2, Res.ok_bind]⟩

variable {mk : Mktime}

/-- The same for the whole formula. -/
theorem Expr.eval_total : ∀ (e : Expr), e.valid = true → (∀ t ∈ e.toks, TokOk t) → ∀ d : Drv,
    ((∃ c ∈ e.conds, (c.cond mk).Undefined) ∧ e.eval mk d = .ub) ∨
    ((∀ c ∈ e.conds, ¬ (c.cond mk).Undefined) ∧ ∃ t d', e.eval mk d = .ok (t, d'))
  | .leaf s, _, ht, d => Or.inr ⟨by simp [Expr.conds], leafNode_ok d (name_ne58 (ht (.leaf s) (by simp [Expr.toks])))⟩
  | .cond c, hv, ht, d => by
    rcases compile_total d c.base (c.cond mk) (CondSyn.widths hv) with h | h
    · exact Or.inl ⟨⟨c, by simp [Expr.conds], h.1⟩, h.2⟩
    · exact Or.inr ⟨by simpa [Expr.conds] using h.1, h.2⟩
  | .paren e, hv, ht, d => e.eval_total hv (fun t h => ht t (by simp [Expr.toks, h])) d
  | .or l r, hv, ht, d => by
    simp only [Expr.valid, Bool.and_eq_true] at hv
    rcases l.eval_total hv.1 (fun t h => ht t (by simp [Expr.toks, h])) d with ⟨⟨c, hc, hu⟩, h1⟩ | ⟨hl, t1, d1, h1⟩
    · exact Or.inl ⟨⟨c, by simp [Expr.conds, hc], hu⟩, by simp only [Expr.eval, h1]; rfl⟩
    · rcases r.eval_total hv.2 (fun t h => ht t (by simp [Expr.toks, h])) d1 with ⟨⟨c, hc, hu⟩, h2⟩ | ⟨hr, t2, d2, h2⟩
      · exact Or.inl ⟨⟨c, by simp [Expr.conds, hc], hu⟩, by simp only [Expr.eval, h1, Res.ok_bind, h2]; rfl⟩
      · refine Or.inr ⟨fun c hc => ?_, kof2 1 t1 t2, d2, by simp only [Expr.eval, h1, h2, Res.ok_bind]⟩
        rcases List.mem_append.mp hc with hc | hc
        · exact hl c hc
        · exact hr c hc
  | .and l r, hv, ht, d => by
    simp only [Expr.valid, Bool.and_eq_true] at hv
    rcases l.eval_total hv.1 (fun t h => ht t (by simp [Expr.toks, h])) d with ⟨⟨c, hc, hu⟩, h1⟩ | ⟨hl, t1, d1, h1⟩
    · exact Or.inl ⟨⟨c, by simp [Expr.conds, hc], hu⟩, by simp only [Expr.eval, h1]; rfl⟩
    · rcases r.eval_total hv.2 (fun t h => ht t (by simp [Expr.toks, h])) d1 with ⟨⟨c, hc, hu⟩, h2⟩ | ⟨hr, t2, d2, h2⟩
      · exact Or.inl ⟨⟨c, by simp [Expr.conds, hc], hu⟩, by simp only [Expr.eval, h1, Res.ok_bind, h2]; rfl⟩
      · refine Or.inr ⟨fun c hc => ?_, kof2 2 t1 t2, d2, by simp only [Expr.eval, h1, h2, Res.ok_bind]⟩
        rcases List.mem_append.mp hc with hc | hc
        · exact hl c hc
        · exact hr c hc

theorem policy_nonempty {s : Bytes} {e : Expr} (he : effective (lex s) = e.toks) : s ≠ [] := by
  rintro rfl
  rw [lex_nil] at he
  cases e with
  | leaf s => simp [effective, Expr.toks] at he
  | cond c => cases c <;> simp [effective, Expr.toks, CondSyn.toks] at he
  | paren e => simp [effective, Expr.toks] at he
  | or l r => simp [effective, Expr.toks] at he
  | and l r => simp [effective, Expr.toks] at he

theorem toks_ok_of_text {s : Bytes} {ts : List Tok} (he : effective (lex s) = ts) : ∀ t ∈ ts, TokOk t := by
  intro t h
  rw [← he] at h
  exact tokOk_of_lex (List.takeWhile_subset _ h)

/-- Reading the text of a formula. -/
theorem createPolicyTree_total {s : Bytes} {e : Expr} (hc : e.canon = true) (hv : e.valid = true)
    (he : effective (lex s) = e.toks) :
    ((∃ c ∈ e.conds, (c.cond mk).Undefined) ∧ createPolicyTree mk s = .ub) ∨
    ((∀ c ∈ e.conds, ¬ (c.cond mk).Undefined) ∧ ∃ p, createPolicyTree mk s = .ok (some p)) := by
  unfold createPolicyTree
  rw [if_neg (policy_nonempty he), parseString_policy hc hv s he]
  rcases e.eval_total (mk := mk) hv (toks_ok_of_text he) { input := s } with ⟨h, h1⟩ | ⟨h, t, d', h1⟩
  · exact Or.inl ⟨h, by rw [h1]; rfl⟩
  · exact Or.inr ⟨h, _, by rw [h1]; rfl⟩

/-! ### Attribute lists -/

/-- Calendar for which no date is out of range. -/
def midMk : Mktime := fun tm => (864000, tm)

theorem midMk_good (c : CondSyn) : ¬ c.BadDate midMk := by
  rintro ⟨h44, n, hn, h⟩
  have hd : toDays 864000 = 10 := by decide
  have ht : ∀ (x : NumSyn), Tok.chr 44 ∉ x.toks := by
    intro x h
    cases x <;> simp [NumSyn.toks] at h
  cases c with
  | cmp op s n => cases op <;> simp [CondSyn.toks, CmpOp.tok, ht] at h44
  | rangeO s lo hi => simp [CondSyn.toks, ht] at h44
  | rangeC s lo hi => simp [CondSyn.toks, ht] at h44
  | date op s m d y =>
    have : n.val = 10 := by
      cases op <;> simp [CondSyn.cond, CmpOp.cond, NumCond.nums, validateDate, midMk, hd] at hn <;> rw [hn]
    rw [this] at h
    revert h
    decide
  | dateRange s m d1 d2 y =>
    have : n.val = 10 := by
      simp [CondSyn.cond, NumCond.nums, midMk, hd] at hn
      rw [hn]
    rw [this] at h
    revert h
    decide

/-- The rules about attributes and numbers do not use the calendar, except one that always returns. -/
theorem act_any (mk mk' : Mktime) {r : Nat} (hr : r ≤ 5 ∨ 23 ≤ r ∧ r ≤ 28) (v : List SVal) (d : Drv) :
    act mk r v d = act mk' r v d ∨ ∃ x y, act mk r v d = .ok (some x) ∧ act mk' r v d = .ok (some y) := by
  have h : r = 0 ∨ r = 1 ∨ r = 2 ∨ r = 3 ∨ r = 4 ∨ r = 5 ∨ r = 23 ∨ r = 24 ∨ r = 25 ∨ r = 26 ∨ r = 27 ∨ r = 28 := by omega
  rcases h with rfl | rfl | rfl | rfl | rfl | rfl | rfl | rfl | rfl | rfl | rfl | rfl
  case' inr.inr.inr.inr.inr.inr.inr.inr.inr.inr.inr =>
    simp only [act]
    split
    · exact Or.inr ⟨_, _, rfl, rfl⟩
    · exact Or.inl rfl
  all_goals
    left
    simp only [act]

theorem tab_rules : ((0 :: 3 :: 10 :: attrStates).all fun s =>
    let r := (yyDefact.getD s 0).toNat
    r ≤ 5 || (23 ≤ r && r ≤ 28)) = true := by decide +kernel

theorem tab_neg : ((List.range 84).all fun i => decide (0 ≤ yyTable.getD i 0)) = true := by decide +kernel

theorem look_pos {s l : Nat} {n : Int} (h : yyLook s l = some n) : 0 ≤ n := by
  unfold yyLook at h
  simp only at h
  split at h
  · cases h
  · split at h
    · cases h
    · rename_i h2
      simp only [not_or, Int.not_lt] at h2
      cases h
      have := List.all_eq_true.mp tab_neg (yyPact.getD s 0 + (l : Int)).toNat (List.mem_range.mpr (by omega))
      simpa using this

theorem reduce_ub (mk mk' : Mktime) {c : PConf} {r : Nat} (hr : r ≤ 5 ∨ 23 ≤ r ∧ r ≤ 28) (h : yyReduce mk c r = .stop .ub) :
    yyReduce mk' c r = .stop .ub := by
  unfold yyReduce at h ⊢
  simp only at h ⊢
  rcases act_any mk mk' hr ((c.stack.take (yyR2.getD r 0).toNat).map Prod.snd) c.drv with e | ⟨x, y, e1, e2⟩
  · rw [← e]; exact h
  · rw [e1] at h
    rw [e2]
    simp only at h ⊢
    cases hd : c.stack.drop (yyR2.getD r 0).toNat with
    | nil => rfl
    | cons a l => rw [hd] at h; cases h

theorem step_ub (mk mk' : Mktime) {b : Bool} {T : List Tok} {G : List GEnt} {c : PConf} (hT : T.head? = some .startAttr)
    (hi : PInv b T G c) (h : yyStep mk c = .stop .ub) : yyStep mk' c = .stop .ub := by
  have hs := attr_states hT G hi.ok ⟨c.toks, hi.toks⟩
  have hst := hi.stack
  unfold yyStep at h ⊢
  cases G with
  | nil => exact hi.ok.elim
  | cons g G =>
    simp only [List.map_cons] at hst
    rw [hst] at h ⊢
    simp only at h ⊢
    by_cases h10 : g.st = 10
    · rw [if_pos h10] at h; cases h
    · rw [if_neg h10] at h ⊢
      have hr := List.all_eq_true.mp tab_rules g.st (hs g (by simp))
      simp only [Bool.or_eq_true, Bool.and_eq_true, decide_eq_true_eq] at hr
      cases hl : yyLook g.st (la c.toks) with
      | none =>
        simp only [hl] at h ⊢
        split at h
        · cases h
        · rename_i h0
          rw [if_neg h0]
          exact reduce_ub mk mk' hr h
      | some n =>
        have h0 := look_pos hl
        simp only [hl] at h ⊢
        by_cases hn : n ≤ 0
        · have : n = 0 := by omega
          subst this
          rw [if_pos (Int.le_refl 0), if_neg (by decide)] at h ⊢
          exact reduce_ub mk mk' (Or.inl (Nat.zero_le 5)) h
        · rw [if_neg hn] at h; cases h

/-- No execution on an attribute list has undefined behaviour. -/
theorem attr_run {T : List Tok} (hT : T.head? = some .startAttr) : ∀ (fuel : Nat) (G : List GEnt) (c : PConf), PInv false T G c →
    pmeas G c < fuel → yyRun mk fuel c ≠ .ub
  | 0, _, _, _, h => absurd h (Nat.not_lt_zero _)
  | fuel + 1, G, c, hi, hm => by
    unfold yyRun
    rcases step_inv (mk := mk) hi with ⟨c', G', hs, hi', hm'⟩ | ⟨r, hs, hg⟩
    · rw [hs]
      exact attr_run hT fuel G' c' hi' (by omega)
    · rw [hs]
      intro hr
      have hr : r = .ub := hr
      subst hr
      have h' := step_ub mk midMk hT hi hs
      rcases step_inv (mk := midMk) hi with ⟨c', G', hs', _, _⟩ | ⟨r, hs', hg'⟩
      · rw [h'] at hs'; cases hs'
      · rw [h'] at hs'
        cases hs'
        obtain ⟨cs, _, _, hb⟩ := hg'
        exact midMk_good cs hb

theorem parseString_list (s : Bytes) : parseString mk false s ≠ .ub := by
  have hT : ∀ t ∈ Tok.startAttr :: lex s, TokOk t := by
    intro t ht
    rcases List.mem_cons.mp ht with rfl | ht
    · trivial
    · exact tokOk_of_lex ht
  unfold parseString
  simp only [Bool.false_eq_true, if_false, lex_prefix_attr]
  let g : GEnt := { st := 0, val := .none, seg := [] }
  refine attr_run (T := .startAttr :: lex s) rfl _ [g] _ ⟨rfl, ⟨rfl, rfl⟩, by simp [segsOf, g], hT, ?_, fun _ => rfl, ?_, ?_, rfl⟩ ?_
  · intro _ _ _ _; exact ⟨rfl, rfl⟩
  · intro a h h35
    simp at h; subst h
    have : stos 0 = 0 := by decide
    simp [g, this] at h35
  · intro a h h10
    simp at h; subst h
    simp [g] at h10
  · have : wt (stos 0) = 2 := by decide
    simp [pmeas, g, yyFuel, this]; omega

/-- Reading any text as an attribute list returns. -/
theorem createAttributeList_returns (mk : Mktime) (s : Bytes) : createAttributeList mk s ≠ .ub := by
  unfold createAttributeList
  split
  · intro h; cases h
  · have := parseString_list (mk := mk) s
    cases h : parseString mk false s <;> simp_all

/-! ### Bars in lists -/

/-- A derivation that does not end with a bar. -/
def AExpr.core : AExpr → Bool
  | item _ => true
  | pre a => a.core
  | post _ => false
  | cat _ b => b.core

theorem AExpr.has_leaf : ∀ a : AExpr, ∃ s, Tok.leaf s ∈ a.toks
  | .item i => by cases i <;> exact ⟨_, List.mem_cons_self⟩
  | .pre a => by obtain ⟨s, h⟩ := a.has_leaf; exact ⟨s, List.mem_cons_of_mem _ h⟩
  | .post a => by obtain ⟨s, h⟩ := a.has_leaf; exact ⟨s, List.mem_append_left _ h⟩
  | .cat a b => by obtain ⟨s, h⟩ := a.has_leaf; exact ⟨s, List.mem_append_left _ h⟩

theorem NumSyn.last_ne (n : NumSyn) (l : List Tok) : (l ++ n.toks).getLast? ≠ some (.chr 124) := by
  cases n <;> simp [NumSyn.toks]

theorem Item.last_ne (i : Item) : i.toks.getLast? ≠ some (.chr 124) := by
  cases i with
  | leaf s => simp [Item.toks]
  | num s n => exact n.last_ne [.leaf s, .chr 61]
  | date s m d y =>
    have := y.last_ne (.leaf s :: .chr 61 :: .leaf m :: (d.toks ++ [.chr 44]))
    simpa [Item.toks] using this

theorem two_bars_cons {x : Tok} {l : List Tok} (hl : ∃ s, Tok.leaf s ∈ l) (h : [Tok.chr 124, .chr 124] <:+ x :: l) :
    [Tok.chr 124, .chr 124] <:+ l := by
  rcases List.suffix_cons_iff.mp h with h | h
  · obtain ⟨s, hs⟩ := hl
    simp only [List.cons.injEq] at h
    rw [← h.2] at hs
    simp at hs
  · exact h

theorem two_bars_append {l : List Tok} (hl : ∃ s, Tok.leaf s ∈ l) : ∀ {p : List Tok}, [Tok.chr 124, .chr 124] <:+ p ++ l →
    [Tok.chr 124, .chr 124] <:+ l
  | [], h => h
  | x :: p, h => two_bars_append hl (two_bars_cons (by obtain ⟨s, hs⟩ := hl; exact ⟨s, List.mem_append_right _ hs⟩) h)

theorem last_of_suffix {x : Tok} {p l : List Tok} (h : p ++ [x] <:+ l) : l.getLast? = some x := by
  obtain ⟨q, rfl⟩ := h
  simp

/-- The derivations that the parser finds end with at most one bar. -/
theorem AExpr.canon_bars : ∀ a : AExpr, a.canon = true → ¬ [Tok.chr 124, .chr 124] <:+ a.toks
  | .item i, _, h => i.last_ne (last_of_suffix (p := [.chr 124]) h)
  | .pre a, hc, h => a.canon_bars hc (two_bars_cons a.has_leaf h)
  | .post (.item i), _, h => by
    have h' : [Tok.chr 124, .chr 124] <:+ i.toks ++ [.chr 124] := h
    obtain ⟨q, hq⟩ := h'
    have : q ++ [Tok.chr 124] = i.toks := by
      have e : (q ++ [Tok.chr 124]) ++ [Tok.chr 124] = i.toks ++ [.chr 124] := by simpa using hq
      exact List.append_cancel_right e
    exact i.last_ne (by rw [← this]; simp)
  | .cat a b, hc, h => by
    simp only [AExpr.canon, Bool.and_eq_true] at hc
    refine b.canon_bars hc.2 (two_bars_append (p := a.toks ++ [.chr 124]) b.has_leaf ?_)
    simpa [AExpr.toks] using h

/-- Bars in front. -/
theorem AExpr.add_bars (c : AExpr) (hc : c.canon = true) (hv : c.valid = true) (hk : c.core = true) : ∀ k : Nat,
    ∃ c' : AExpr, c'.canon = true ∧ c'.valid = true ∧ c'.core = true ∧ c'.toks = List.replicate k (Tok.chr 124) ++ c.toks
  | 0 => ⟨c, hc, hv, hk, rfl⟩
  | k + 1 => by
    obtain ⟨c', h1, h2, h3, h4⟩ := add_bars c hc hv hk k
    exact ⟨.pre c', h1, h2, h3, by simp only [AExpr.toks, h4, List.replicate_succ, List.cons_append]⟩

/-- Two lists with bars between them. -/
theorem AExpr.join (c2 : AExpr) (hc2 : c2.canon = true) (hv2 : c2.valid = true) (hk2 : c2.core = true) (k : Nat) :
    ∀ c1 : AExpr, c1.canon = true → c1.valid = true → c1.core = true →
    ∃ c : AExpr, c.canon = true ∧ c.valid = true ∧ c.core = true ∧
      c.toks = c1.toks ++ List.replicate (k + 1) (Tok.chr 124) ++ c2.toks
  | .item i, _, hv, _ => by
    obtain ⟨c', h1, h2, h3, h4⟩ := c2.add_bars hc2 hv2 hk2 k
    refine ⟨.cat (.item i) c', ?_, ?_, h3, ?_⟩
    · simp only [AExpr.canon, AExpr.isItem, h1, Bool.and_self]
    · simp only [AExpr.valid] at hv ⊢; simp only [hv, h2, Bool.and_self]
    · simp only [AExpr.toks, h4, List.replicate_succ, List.append_assoc, List.cons_append]
  | .pre a, hc, hv, hk => by
    obtain ⟨c, h1, h2, h3, h4⟩ := join c2 hc2 hv2 hk2 k a hc hv hk
    exact ⟨.pre c, h1, h2, h3, by simp only [AExpr.toks, h4, List.append_assoc, List.cons_append]⟩
  | .post a, _, _, hk => by cases hk
  | .cat a b, hc, hv, hk => by
    simp only [AExpr.canon, AExpr.valid, Bool.and_eq_true] at hc hv
    obtain ⟨c, h1, h2, h3, h4⟩ := join c2 hc2 hv2 hk2 k b hc.2 hv.2 hk
    refine ⟨.cat a c, ?_, ?_, h3, ?_⟩
    · simp only [AExpr.canon, hc.1, h1, Bool.and_self]
    · simp only [AExpr.valid, hv.1, h2, Bool.and_self]
    · simp only [AExpr.toks, h4, List.append_assoc, List.cons_append]

/-- Every list is one that does not end with a bar, followed by bars. -/
theorem AExpr.strip : ∀ a : AExpr, a.valid = true → ∃ (c : AExpr) (k : Nat), c.canon = true ∧ c.valid = true ∧ c.core = true ∧
    a.toks = c.toks ++ List.replicate k (Tok.chr 124)
  | .item i, hv => ⟨.item i, 0, rfl, hv, rfl, by simp⟩
  | .pre a, hv => by
    obtain ⟨c, k, h1, h2, h3, h4⟩ := a.strip hv
    exact ⟨.pre c, k, h1, h2, h3, by simp only [AExpr.toks, h4, List.cons_append]⟩
  | .post a, hv => by
    obtain ⟨c, k, h1, h2, h3, h4⟩ := a.strip hv
    exact ⟨c, k + 1, h1, h2, h3, by simp only [AExpr.toks, h4, List.replicate_succ', List.append_assoc]⟩
  | .cat a b, hv => by
    simp only [AExpr.valid, Bool.and_eq_true] at hv
    obtain ⟨c1, k1, h1, h2, h3, h4⟩ := a.strip hv.1
    obtain ⟨c2, k2, g1, g2, g3, g4⟩ := b.strip hv.2
    obtain ⟨c, f1, f2, f3, f4⟩ := AExpr.join c2 g1 g2 g3 k1 c1 h1 h2 h3
    refine ⟨c, k2, f1, f2, f3, ?_⟩
    simp only [AExpr.toks, h4, g4, f4, List.replicate_succ', List.append_assoc, List.cons_append, List.nil_append]

theorem AExpr.close : ∀ c : AExpr, c.canon = true → c.valid = true → c.core = true →
    ∃ c' : AExpr, c'.canon = true ∧ c'.valid = true ∧ c'.toks = c.toks ++ [Tok.chr 124]
  | .item i, _, hv, _ => ⟨.post (.item i), rfl, hv, rfl⟩
  | .pre a, hc, hv, hk => by
    obtain ⟨c', h1, h2, h3⟩ := a.close hc hv hk
    exact ⟨.pre c', h1, h2, by simp only [AExpr.toks, h3, List.cons_append]⟩
  | .post a, _, _, hk => by cases hk
  | .cat a b, hc, hv, hk => by
    simp only [AExpr.canon, AExpr.valid, Bool.and_eq_true] at hc hv
    obtain ⟨c', h1, h2, h3⟩ := b.close hc.2 hv.2 hk
    refine ⟨.cat a c', ?_, ?_, by simp only [AExpr.toks, h3, List.append_assoc, List.cons_append]⟩
    · simp only [AExpr.canon, hc.1, h1, Bool.and_self]
    · simp only [AExpr.valid, hv.1, h2, Bool.and_self]

/-- A list has a derivation that the parser finds, unless it ends with two bars. -/
theorem AExpr.canon_of_bars (a : AExpr) (hv : a.valid = true) (h : ¬ [Tok.chr 124, .chr 124] <:+ a.toks) :
    ∃ c : AExpr, c.canon = true ∧ c.valid = true ∧ c.toks = a.toks := by
  obtain ⟨c, k, h1, h2, h3, h4⟩ := a.strip hv
  match k, h4 with
  | 0, h4 => exact ⟨c, h1, h2, by rw [h4]; simp⟩
  | 1, h4 =>
    obtain ⟨c', g1, g2, g3⟩ := c.close h1 h2 h3
    exact ⟨c', g1, g2, by rw [h4, g3]; rfl⟩
  | k + 2, h4 =>
    exfalso
    apply h
    rw [h4, List.replicate_succ', List.replicate_succ', ← List.append_assoc, ← List.append_assoc, List.append_assoc]
    exact List.suffix_append _ _

end Abe
