import Verif.Model.CallStack
import Verif.Spec.CallStack
import Verif.Proof.Scheme
import Verif.Proof.ParserHeapRun
import Mathlib.Data.List.TakeWhile
/-! # Recursion over policy trees: lemmas -/
set_option linter.unusedSimpArgs false
set_option linter.unusedSectionVars false
set_option autoImplicit false
namespace Abe

/-! ### The bounded functions -/

theorem levels_pos (t : TNode) : 1 ≤ t.levels := by cases t <;> simp [TNode.levels]

theorem levelsL_pos : ∀ {l : List TNode}, l ≠ [] → 1 ≤ levelsL l
  | [], h => absurd rfl h
  | c :: cs, _ => by
    cases c <;> simp [levelsL, TNode.levels]

theorem callEach_ok {α β : Type} {f : α → Res β} (g : α → β) : ∀ (l : List α), (∀ x ∈ l, f x = .ok (g x)) →
    callEach f l = .ok (l.map g)
  | [], _ => rfl
  | x :: xs, h => by
    have := callEach_ok g xs (fun y hy => h y (List.mem_cons_of_mem _ hy))
    simp only [callEach, h x (by simp), this]
    rfl

theorem callEach_ub {α β : Type} {f : α → Res β} (g : α → β) : ∀ (l : List α), (∀ x ∈ l, f x = .ok (g x) ∨ f x = .ub) →
    (∃ x ∈ l, f x = .ub) → callEach f l = .ub
  | [], _, h => by simp at h
  | x :: xs, h, he => by
    rcases h x (by simp) with hx | hx
    · obtain ⟨y, hy, hyu⟩ := he
      rcases List.mem_cons.mp hy with rfl | hy
      · rw [hx] at hyu; cases hyu
      · have := callEach_ub g xs (fun y hy => h y (List.mem_cons_of_mem _ hy)) ⟨y, hy, hyu⟩
        simp only [callEach, hx, this]
        rfl
    · simp only [callEach, hx]
      rfl

theorem levels_le_levelsL : ∀ {l : List TNode} {c : TNode}, c ∈ l → c.levels ≤ levelsL l
  | [], _, h => by simp at h
  | x :: xs, c, h => by
    rcases List.mem_cons.mp h with rfl | h
    · simp [levelsL]
    · have := levels_le_levelsL h
      simp [levelsL]; omega

theorem exists_levels : ∀ {l : List TNode} {n : Nat}, n < levelsL l → ∃ c ∈ l, n < c.levels
  | [], n, h => by simp [levelsL] at h
  | x :: xs, n, h => by
    simp only [levelsL] at h
    by_cases hx : n < x.levels
    · exact ⟨x, by simp, hx⟩
    · obtain ⟨c, hc, h'⟩ := exists_levels (l := xs) (n := n) (by omega)
      exact ⟨c, List.mem_cons_of_mem _ hc, h'⟩

/-- Calling a function for all subnodes that needs as many frames as there are levels. -/
theorem callEach_levels {β : Type} {f : Nat → TNode → Res β} {g : TNode → β} {n : Nat} {l : List TNode}
    (h : ∀ c ∈ l, f n c = if c.levels ≤ n then .ok (g c) else .ub) :
    callEach (f n) l = if levelsL l ≤ n then .ok (l.map g) else .ub := by
  split
  · rename_i hl
    refine callEach_ok g l (fun x hx => ?_)
    rw [h x hx, if_pos (Nat.le_trans (levels_le_levelsL hx) hl)]
  · rename_i hl
    refine callEach_ub g l (fun x hx => ?_) ?_
    · rw [h x hx]
      split
      · exact Or.inl rfl
      · exact Or.inr rfl
    · obtain ⟨c, hc, h'⟩ := exists_levels (Nat.lt_of_not_le hl)
      exact ⟨c, hc, by rw [h c hc, if_neg (by omega)]⟩

theorem copyFrames_eq : ∀ (n : Nat) (t : TNode), copyFrames n t = if t.levels ≤ n then .ok (copyTree t) else .ub
  | 0, t => by cases t <;> simp [copyFrames, TNode.levels]
  | n + 1, .leaf _ _ _ _ => by simp [copyFrames, TNode.levels, copyTree]
  | n + 1, .gate fl ty thr subs => by
    have := callEach_levels (f := copyFrames) (g := copyTree) (n := n) (l := subs) (fun c _ => copyFrames_eq n c)
    simp only [copyFrames, this, TNode.levels, copyTree, copyTreeL_eq]
    by_cases hl : levelsL subs ≤ n
    · rw [if_pos hl, if_pos (by omega)]; rfl
    · rw [if_neg hl, if_neg (by omega)]; rfl

theorem andOrL_mem : ∀ {l : List TNode}, AndOrL l → ∀ c ∈ l, AndOr c
  | [], _, _, h => by simp at h
  | x :: xs, ha, c, h => by
    rcases List.mem_cons.mp h with rfl | h
    · exact ha.1
    · exact andOrL_mem ha.2 c h

theorem strFrames_eq : ∀ (n : Nat) (t : TNode), AndOr t → strFrames n t = if t.levels ≤ n then .ok t.str else .ub
  | 0, t, _ => by cases t <;> simp [strFrames, TNode.levels]
  | n + 1, .leaf _ _ _ _, _ => by simp [strFrames, TNode.levels, TNode.str]
  | n + 1, .gate fl ty thr subs, ha => by
    simp only [AndOr] at ha
    obtain ⟨hty, -, hL⟩ := ha
    have hc := callEach_levels (f := strFrames) (g := TNode.str) (n := n) (l := subs)
      (fun c h => strFrames_eq n c (andOrL_mem hL c h))
    have main : ∀ k : List Bytes → Bytes, (do let ss ← callEach (strFrames n) subs; (.ok (k ss) : Res Bytes)) =
        if 1 + levelsL subs ≤ n + 1 then .ok (k (strL subs)) else .ub := by
      intro k
      rw [hc, strL_eq]
      by_cases hl : levelsL subs ≤ n
      · rw [if_pos hl, if_pos (by omega)]; rfl
      · rw [if_neg hl, if_neg (by omega)]; rfl
    cases subs with
    | nil =>
      simp only [strFrames, TNode.str, TNode.levels]
      exact main _
    | cons a l =>
      cases l with
      | nil =>
        simp only [strFrames, TNode.str, TNode.levels]
        exact main _
      | cons b l =>
        cases l with
        | nil =>
          have h1 := strFrames_eq n a (andOrL_mem hL a (by simp))
          have h2 := strFrames_eq n b (andOrL_mem hL b (by simp))
          have hb := levels_pos b
          rcases hty with rfl | rfl
          all_goals
            have hlev : ∀ ty, (TNode.gate fl ty thr [a, b]).levels = 1 + max a.levels (max b.levels 0) := fun _ => rfl
            by_cases ha' : a.levels ≤ n
            · by_cases hb' : b.levels ≤ n
              · rw [if_pos (by rw [hlev]; omega)]
                rw [if_pos ha'] at h1
                rw [if_pos hb'] at h2
                simp only [strFrames, h1, h2]
                rfl
              · rw [if_neg (by rw [hlev]; omega)]
                rw [if_pos ha'] at h1
                rw [if_neg hb'] at h2
                simp only [strFrames, h1, h2]
                rfl
            · rw [if_neg (by rw [hlev]; omega)]
              rw [if_neg ha'] at h1
              simp only [strFrames, h1]
              rfl
        | cons c l =>
          simp only [strFrames, TNode.str, TNode.levels]
          exact main _

/-! ### How large a parsed policy is -/

theorem built_size {d d' : Drv} {t : TNode} {cs : List Bytes} (h : Built d t d' cs) :
    t.size + 1 = 2 * (leaves t).length := by
  induction h with
  | leaf h =>
    obtain ⟨p, a, i, _, rfl⟩ := leafNode_inv h
    simp [TNode.size, leaves]
  | gate _ _ _ ih1 ih2 => simp [kof2, TNode.size, sizeL, leaves, leavesL]; omega
  | gateR _ _ _ ih1 ih2 => simp [kof2, TNode.size, sizeL, leaves, leavesL]; omega

/-- At most `n` levels and `n` leaves. -/
def Within (n : Nat) (t : TNode) : Prop := t.levels ≤ n ∧ (leaves t).length ≤ n

theorem leafNode_within {d d' : Drv} {c : Bytes} {t : TNode} (h : leafNode d c = .ok (t, d')) : t.levels = 1 ∧ (leaves t).length = 1 := by
  obtain ⟨p, a, i, _, rfl⟩ := leafNode_inv h
  simp [TNode.levels, leaves]

theorem kof2_within (k : Nat) (l r : TNode) : (kof2 k l r).levels = 1 + max l.levels r.levels ∧
    (leaves (kof2 k l r)).length = (leaves l).length + (leaves r).length := by
  simp [kof2, TNode.levels, levelsL, leaves, leavesL]

theorem bitLoop_within {flex gt : Bool} {attr : Bytes} {bits v : Nat} : ∀ (n i m : Nat) (p : TNode) (d : Drv) (t : TNode)
    (d' : Drv), Within m p → bitLoop flex gt attr bits v n i p d = .ok (t, d') → Within (m + n) t
  | 0, i, m, p, d, t, d', hp, h => by
    simp only [bitLoop] at h
    cases h
    exact hp
  | n + 1, i, m, p, d, t, d', hp, h => by
    simp only [bitLoop] at h
    split at h
    · cases h
    · obtain ⟨r, hr, h⟩ := (Res.bind_eq_ok _ _ _).mp h
      obtain ⟨h1, h2⟩ := leafNode_within hr
      have hk : ∀ k, Within (m + 1) (kof2 k r.1 p) := by
        intro k
        obtain ⟨k1, k2⟩ := kof2_within k r.1 p
        have := levels_pos p
        have := hp.1
        have := hp.2
        constructor <;> omega
      have := bitLoop_within n (i + 1) (m + 1) _ _ _ _ (hk _) h
      have e : m + (n + 1) = m + 1 + n := by omega
      rw [e]
      exact this

theorem eqLoop_within {flex : Bool} {c : Bytes} {bits v : Nat} : ∀ (n m : Nat) (p : TNode) (d : Drv) (t : TNode)
    (d' : Drv), Within m p → eqLoop flex c bits v n p d = .ok (t, d') → Within (m + n) t
  | 0, m, p, d, t, d', hp, h => by
    simp only [eqLoop] at h
    cases h
    exact hp
  | n + 1, m, p, d, t, d', hp, h => by
    simp only [eqLoop] at h
    obtain ⟨r, hr, h⟩ := (Res.bind_eq_ok _ _ _).mp h
    obtain ⟨h1, h2⟩ := leafNode_within hr
    obtain ⟨k1, k2⟩ := kof2_within 2 p r.1
    have hk : Within (m + 1) (kof2 2 p r.1) := by
      have := levels_pos p
      have := hp.1
      have := hp.2
      constructor <;> omega
    have := eqLoop_within n (m + 1) _ _ _ _ hk h
    have e : m + (n + 1) = m + 1 + n := by omega
    rw [e]
    exact this

theorem Within.mono {m n : Nat} {t : TNode} (h : Within m t) (hl : m ≤ n) : Within n t :=
  ⟨Nat.le_trans h.1 hl, Nat.le_trans h.2 hl⟩

theorem cmpPolicy_within {d d' : Drv} {n : UInteger} {gt : Bool} {base : Bytes} {t : TNode} (hw : Width n.bits)
    (h : cmpPolicy d n gt base = .ok (t, d')) : Within 32 t := by
  have h32 : n.bits ≤ 32 ∧ n.bits ≠ 0 := by rcases hw with h | h | h | h <;> omega
  simp only [cmpPolicy, bitMarkerList, h32.2, ne_eq, not_false_eq_true, if_true] at h
  split at h
  · cases h
  · rename_i i _
    obtain ⟨r, hr, h⟩ := (Res.bind_eq_ok _ _ _).mp h
    obtain ⟨h1, h2⟩ := leafNode_within hr
    have := bitLoop_within _ _ 1 _ _ _ _ ⟨by omega, by omega⟩ h
    exact this.mono (by omega)

theorem eqPolicy_within {d d' : Drv} {n : UInteger} {base : Bytes} {t : TNode} (hw : Width n.bits)
    (h : eqPolicy d base n = .ok (t, d')) : Within 32 t := by
  have h32 : n.bits ≤ 32 ∧ n.bits ≠ 0 := by rcases hw with h | h | h | h <;> omega
  simp only [eqPolicy, h32.2, ne_eq, not_false_eq_true, if_true, decide_false, Bool.false_eq_true, if_false] at h
  obtain ⟨r, hr, h⟩ := (Res.bind_eq_ok _ _ _).mp h
  obtain ⟨h1, h2⟩ := leafNode_within hr
  have := eqLoop_within _ 1 _ _ _ _ ⟨by omega, by omega⟩ h
  exact this.mono (by omega)

/-- Levels and leaves of a tree, in terms of the tokens it comes from. -/
def FitsTokens (n : Nat) (t : TNode) : Prop := t.levels ≤ n + 30 ∧ (leaves t).length ≤ 11 * n

theorem Within.fits {n : Nat} {t : TNode} (h : Within 32 t) (hn : 3 ≤ n) : FitsTokens n t := by
  have := h.1
  have := h.2
  constructor <;> omega

theorem and_fits {n : Nat} {l r : TNode} (hl : Within 32 l) (hr : Within 32 r) (hn : 7 ≤ n) :
    FitsTokens n (.gate {} .and 2 [l, r]) := by
  have a1 := hl.1
  have a2 := hl.2
  have b1 := hr.1
  have b2 := hr.2
  constructor
  · simp only [TNode.levels, levelsL]; omega
  · simp only [leaves, leavesL, List.length_append, List.length_nil]; omega

variable {mk : Mktime}

theorem compile_fits {d d' : Drv} {base : Bytes} {c : NumCond} {t : TNode} {n : Nat} (hn : ∀ n ∈ c.nums, Width n.bits)
    (h : c.compile d base = .ok (t, d')) (h3 : 3 ≤ n) (h7 : c.nums.length = 2 → 7 ≤ n) : FitsTokens n t := by
  cases c with
  | lt m => exact (cmpPolicy_within (hn m (by simp [NumCond.nums])) h).fits h3
  | gt m => exact (cmpPolicy_within (hn m (by simp [NumCond.nums])) h).fits h3
  | le m => exact (cmpPolicy_within (n := m.add1) (hn m (by simp [NumCond.nums])) h).fits h3
  | ge m => exact (cmpPolicy_within (n := m.sub1) (hn m (by simp [NumCond.nums])) h).fits h3
  | eq m => exact (eqPolicy_within (hn m (by simp [NumCond.nums])) h).fits h3
  | inOpen lo hi =>
    simp only [NumCond.compile, rangePolicy] at h
    obtain ⟨l, hl, h⟩ := (Res.bind_eq_ok _ _ _).mp h
    obtain ⟨r, hr', h⟩ := (Res.bind_eq_ok _ _ _).mp h
    cases h
    exact and_fits (cmpPolicy_within (hn lo (by simp [NumCond.nums])) hl)
      (cmpPolicy_within (hn hi (by simp [NumCond.nums])) hr') (h7 rfl)
  | inClosed lo hi =>
    simp only [NumCond.compile, rangeInclPolicy] at h
    obtain ⟨l, hl, h⟩ := (Res.bind_eq_ok _ _ _).mp h
    obtain ⟨r, hr', h⟩ := (Res.bind_eq_ok _ _ _).mp h
    cases h
    exact and_fits (cmpPolicy_within (n := lo.sub1) (hn lo (by simp [NumCond.nums])) hl)
      (cmpPolicy_within (n := hi.add1) (hn hi (by simp [NumCond.nums])) hr') (h7 rfl)

theorem numSyn_toks (n : NumSyn) : 1 ≤ n.toks.length := by cases n <;> simp [NumSyn.toks]

theorem condSyn_toks (c : CondSyn) : 3 ≤ c.toks.length ∧ ((c.cond mk).nums.length = 2 → 7 ≤ c.toks.length) := by
  cases c with
  | cmp op s n =>
    have := numSyn_toks n
    simp only [CondSyn.toks, CondSyn.cond, CmpOp.nums_eq, List.length_cons, List.length_nil]
    omega
  | rangeO s lo hi =>
    have := numSyn_toks lo
    have := numSyn_toks hi
    simp only [CondSyn.toks, List.length_cons, List.length_append, List.length_nil]
    omega
  | rangeC s lo hi =>
    have := numSyn_toks lo
    have := numSyn_toks hi
    simp only [CondSyn.toks, List.length_cons, List.length_append, List.length_nil]
    omega
  | date op s m d y =>
    have := numSyn_toks d
    have := numSyn_toks y
    simp only [CondSyn.toks, CondSyn.cond, CmpOp.nums_eq, List.length_cons, List.length_append, List.length_nil]
    omega
  | dateRange s m d1 d2 y =>
    have := numSyn_toks d1
    have := numSyn_toks d2
    have := numSyn_toks y
    simp only [CondSyn.toks, List.length_cons, List.length_append, List.length_nil]
    omega

theorem kof2_fits (k : Nat) {m n : Nat} {l r : TNode} (hl : FitsTokens m l) (hr : FitsTokens n r) (hm : 1 ≤ m) (hn : 1 ≤ n) :
    FitsTokens (m + (n + 1)) (kof2 k l r) := by
  obtain ⟨k1, k2⟩ := kof2_within k l r
  have a1 := hl.1
  have a2 := hl.2
  have b1 := hr.1
  have b2 := hr.2
  constructor <;> omega

theorem expr_toks : ∀ e : Expr, 1 ≤ e.toks.length
  | .leaf _ => by simp [Expr.toks]
  | .cond c => by
    have := (condSyn_toks (mk := fun t => (0, t)) c).1
    simp only [Expr.toks]; omega
  | .paren e => by simp [Expr.toks]
  | .or l r => by simp [Expr.toks]; omega
  | .and l r => by simp [Expr.toks]; omega

theorem eval_fits : ∀ (e : Expr) (d d' : Drv) (t : TNode), e.valid = true → e.eval mk d = .ok (t, d') → FitsTokens e.toks.length t
  | .leaf s, d, d', t, _, h => by
    obtain ⟨h1, h2⟩ := leafNode_within h
    simp only [Expr.toks, List.length_cons, List.length_nil]
    constructor <;> omega
  | .cond c, d, d', t, hv, h => by
    obtain ⟨h3, h7⟩ := condSyn_toks (mk := mk) c
    exact compile_fits (CondSyn.widths hv) h h3 h7
  | .paren e, d, d', t, hv, h => by
    have h' := eval_fits e d d' t hv h
    have h1 := h'.1
    have h2 := h'.2
    simp only [Expr.toks, List.length_cons, List.length_append, List.length_nil]
    constructor <;> omega
  | .or l r, d, d', t, hv, h => by
    simp only [Expr.valid, Bool.and_eq_true] at hv
    simp only [Expr.eval] at h
    obtain ⟨x, hx, h⟩ := (Res.bind_eq_ok _ _ _).mp h
    obtain ⟨y, hy, h⟩ := (Res.bind_eq_ok _ _ _).mp h
    cases h
    simp only [Expr.toks, List.length_cons, List.length_append]
    exact kof2_fits 1 (eval_fits l _ _ _ hv.1 hx) (eval_fits r _ _ _ hv.2 hy) (expr_toks l) (expr_toks r)
  | .and l r, d, d', t, hv, h => by
    simp only [Expr.valid, Bool.and_eq_true] at hv
    simp only [Expr.eval] at h
    obtain ⟨x, hx, h⟩ := (Res.bind_eq_ok _ _ _).mp h
    obtain ⟨y, hy, h⟩ := (Res.bind_eq_ok _ _ _).mp h
    cases h
    simp only [Expr.toks, List.length_cons, List.length_append]
    exact kof2_fits 2 (eval_fits l _ _ _ hv.1 hx) (eval_fits r _ _ _ hv.2 hy) (expr_toks l) (expr_toks r)

theorem lex_length (n : Nat) : ∀ s : Bytes, s.length ≤ n → (lex s).length ≤ s.length := by
  induction n with
  | zero =>
    intro s h
    cases s with
    | nil => simp
    | cons => simp at h
  | succ n ih =>
    intro s h
    cases s with
    | nil => simp
    | cons b s =>
      simp only [List.length_cons] at h
      have hd : ∀ p : UInt8 → Bool, (s.dropWhile p).length ≤ s.length := fun p => (List.dropWhile_suffix p).length_le
      have hs := ih s (by omega)
      have hp : ∀ p : UInt8 → Bool, (lex (s.dropWhile p)).length ≤ s.length := fun p =>
        Nat.le_trans (ih _ (Nat.le_trans (hd p) (by omega))) (hd p)
      have h1 := hp isBlank
      have h2 := hp isWord
      have h3 := hp isDigit
      have h4 : (lex s.tail).length ≤ s.length :=
        Nat.le_trans (ih _ (by rw [List.length_tail]; omega)) (by rw [List.length_tail]; omega)
      rw [lex_cons]
      repeat' split
      all_goals
        simp only [List.length_cons]
        omega

theorem effective_length (s : Bytes) : (effective (lex s)).length ≤ s.length :=
  Nat.le_trans (List.takeWhile_prefix _).length_le (lex_length s.length s (Nat.le_refl _))

/-! ### A long chain -/

/-- The formula of `orChain`. -/
def chainExpr : Nat → Expr
  | 0 => .leaf b!"a"
  | n + 1 => .or (chainExpr n) (.leaf b!"a")

theorem orc_toks : ∀ n, (chainExpr n).toks = .leaf b!"a" :: (List.replicate n [Tok.or, Tok.leaf b!"a"]).flatten
  | 0 => rfl
  | n + 1 => by
    rw [chainExpr, Expr.toks, orc_toks n, List.replicate_succ', List.flatten_append]
    simp [Expr.toks]

theorem orc_text (n : Nat) : orChain n = spaced (chainExpr n).toks := by
  rw [orc_toks]
  simp only [spaced, List.flatMap_cons, orChain]
  congr 1
  induction n with
  | zero => rfl
  | succ n ih =>
    rw [List.replicate_succ, List.flatten_cons, ih, List.replicate_succ, List.flatten_cons, List.flatMap_append]
    rfl

theorem orc_canon : ∀ n, (chainExpr n).canon = true
  | 0 => rfl
  | n + 1 => by simp [chainExpr, Expr.canon, orc_canon n, Expr.isOr]

theorem orc_valid : ∀ n, (chainExpr n).valid = true
  | 0 => rfl
  | n + 1 => by simp [chainExpr, Expr.valid, orc_valid n]

theorem orc_conds : ∀ n, (chainExpr n).conds = []
  | 0 => rfl
  | n + 1 => by simp [chainExpr, Expr.conds, orc_conds n]

theorem orc_tok_mem {n : Nat} {t : Tok} (h : t ∈ (chainExpr n).toks) : t = .or ∨ t = .leaf b!"a" := by
  rw [orc_toks] at h
  simp only [List.mem_cons, List.mem_flatten, List.mem_replicate] at h
  rcases h with rfl | ⟨l, ⟨-, rfl⟩, h⟩
  · exact Or.inr rfl
  · simpa using h

theorem orc_effective (n : Nat) : effective (lex (orChain n)) = (chainExpr n).toks := by
  rw [orc_text, lex_spaced]
  · refine List.takeWhile_eq_self_iff.mpr (fun t ht => ?_)
    rcases orc_tok_mem ht with rfl | rfl <;> decide
  · intro t ht
    rcases orc_tok_mem ht with rfl | rfl
    · trivial
    · show isName _ = true
      decide
  · intro t ht
    rcases orc_tok_mem ht with rfl | rfl <;> rfl

theorem orc_levels : ∀ (n : Nat) (d d' : Drv) (t : TNode), (chainExpr n).eval mk d = .ok (t, d') → t.levels = n + 1
  | 0, d, d', t, h => (leafNode_within h).1
  | n + 1, d, d', t, h => by
    simp only [chainExpr, Expr.eval] at h
    obtain ⟨x, hx, h⟩ := (Res.bind_eq_ok _ _ _).mp h
    obtain ⟨y, hy, h⟩ := (Res.bind_eq_ok _ _ _).mp h
    cases h
    have h1 := orc_levels n _ _ _ hx
    have h2 := (leafNode_within hy).1
    have h3 := (kof2_within 1 x.1 y.1).1
    omega

theorem orc_length (n : Nat) : (orChain n).length = 5 * n + 2 := by
  simp [orChain, List.length_flatten]
  omega

theorem orc_parsed (mk : Mktime) (n : Nat) :
    ∃ p t, createPolicyTree mk (orChain n) = .ok (some p) ∧ p.root = some t ∧ t.levels = n + 1 := by
  obtain ⟨t, d', p, h1, h2, h3, -⟩ := createPolicyTree_ok mk (orc_canon n) (orc_valid n) (orc_effective n)
    (by intro c hc; rw [orc_conds] at hc; simp at hc)
  exact ⟨p, t, h1, h3, orc_levels n _ _ _ h2⟩

theorem parsed_size {s : Bytes} {p : Policy} (h : createPolicyTree mk s = .ok (some p)) :
    ∃ t, p.root = some t ∧ AndOr t ∧ t.levels ≤ s.length + 30 ∧ (leaves t).length ≤ 11 * s.length ∧
      t.size + 1 = 2 * (leaves t).length := by
  obtain ⟨e, t, d', hv, hc, he, hev, rfl⟩ := accepted_eval h
  obtain ⟨cs, hb, -⟩ := e.eval_built _ _ _ hv hev
  have hf := eval_fits e _ _ _ hv hev
  have h1 := hf.1
  have h2 := hf.2
  have hl := effective_length s
  rw [he] at hl
  exact ⟨t, rfl, (built_shape hb).1, by omega, by omega, built_size hb⟩

/-! ### Deletion -/

open PH

theorem delKids_frames (f g : Heap → Nat → Res Heap) : ∀ (ks : List Nat) (h : Heap), ks.Nodup →
    (∀ k ∈ ks, ∃ tag kids, h.get k = some (.node 1 tag kids)) →
    ks.foldlM (deRefKid f) h = ks.foldlM (deRefKid g) h
  | [], h, _, _ => rfl
  | k :: ks, h, hn, hk => by
    obtain ⟨hfr, hn'⟩ := List.nodup_cons.mp hn
    obtain ⟨tag, kids, hg⟩ := hk k (by simp)
    have hd : ∀ d, deRefKid d h k = .ok (h.put k (some (.node 0 tag kids))) := by
      intro d
      unfold deRefKid
      rw [hg]
      simp only [deRefs_one]
    rw [List.foldlM_cons, List.foldlM_cons, hd, hd]
    exact delKids_frames f g ks _ hn' (fun x hx => by
      obtain ⟨tg, kd, hh⟩ := hk x (by simp [hx])
      refine ⟨tg, kd, ?_⟩
      rw [get_put hg, if_neg (by rintro rfl; exact hfr hx)]; exact hh)

theorem del_one_frame {h : Heap} {P : Items} {L : Loss} {t : TNode} {a : Nat} (e : Holds h ((.tree t, .ptr a) :: P) L) :
    delNode 1 h a = delTree h (.ptr a) := by
  obtain ⟨_, ⟨f, fp, ⟨a', ha', ht⟩, e1, rfl⟩, e2, e3, e4⟩ := e
  cases ha'
  have hnode := ht.nodes
  rw [List.append_assoc] at e2
  obtain ⟨n1, n2, n3⟩ := List.nodup_append.mp e2
  obtain ⟨kids, M, tag, hg, rfl, hkn, hkm⟩ : ∃ kids M tag, h.get a = some (.node 1 tag kids) ∧ f = a :: M ∧ kids.Nodup ∧
      ∀ k ∈ kids, k ∈ M := by
    cases t with
    | leaf => simp only [TreeAt] at ht; exact ⟨[], [], _, ht.1, ht.2, List.nodup_nil, by simp⟩
    | gate fl ty thr subs =>
      simp only [TreeAt] at ht
      obtain ⟨kids, fps, t1, t2, rfl⟩ := ht
      obtain ⟨k1, k2⟩ := t2.kids (List.nodup_cons.mp n1).2
      exact ⟨kids, fps, _, t1, rfl, k1, k2⟩
  simp only [delTree, delNode, hg]
  rw [delKids_frames _ (delNode h.cells.length) kids h hkn (fun k hk => hnode k (by simp [hkm k hk]))]

end Abe
