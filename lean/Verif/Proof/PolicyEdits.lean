import Verif.Spec.PolicyEdits
import Verif.Proof.Outcome
import Verif.Proof.PrintParse
import Verif.Props.Parser
/-!
# Adding to a policy: lemmas
-/
set_option linter.unusedSimpArgs false
set_option linter.unusedSectionVars false
set_option autoImplicit false
namespace Abe
namespace Edit
variable {mk : Mktime}

/-! ### Parentheses -/

/-- Opening parentheses minus closing ones. -/
def bal : List Tok → Int
  | [] => 0
  | .chr 40 :: ts => 1 + bal ts
  | .chr 41 :: ts => -1 + bal ts
  | _ :: ts => bal ts

theorem bal_cons (t : Tok) (ts : List Tok) : bal (t :: ts) = bal [t] + bal ts := by
  cases t with
  | chr b =>
    by_cases h : b = 40
    · subst h; simp [bal]
    · by_cases h' : b = 41
      · subst h'; simp [bal]
      · rw [bal, bal]
        · simp [bal]
        all_goals (intro hh; first | exact h (by simpa using hh) | exact h' (by simpa using hh))
  | _ => simp [bal]

theorem bal_append (a b : List Tok) : bal (a ++ b) = bal a + bal b := by
  induction a with
  | nil => simp [bal]
  | cons t a ih => rw [List.cons_append, bal_cons, ih, bal_cons t a]; omega

/-- Balanced. -/
def Nice (l : List Tok) : Prop := bal l = 0 ∧ ∀ a b, l = a ++ b → 0 ≤ bal a

theorem nice_append {l r : List Tok} (hl : Nice l) (hr : Nice r) : Nice (l ++ r) := by
  refine ⟨by rw [bal_append, hl.1, hr.1]; rfl, fun a b h => ?_⟩
  rcases List.append_eq_append_iff.mp h with ⟨c, h1, h2⟩ | ⟨c, h1, h2⟩
  · rw [h1, bal_append, hl.1]
    have := hr.2 c b h2
    omega
  · exact hl.2 a c h1

theorem nice_one {t : Tok} (h : bal [t] = 0) : Nice [t] := by
  refine ⟨h, fun a b h' => ?_⟩
  rcases a with _ | ⟨x, a⟩
  · simp [bal]
  · simp only [List.cons_append, List.cons.injEq] at h'
    obtain ⟨rfl, h'⟩ := h'
    have : a = [] := (List.append_eq_nil_iff.mp h'.symm).1
    rw [this, h]

theorem nice_cons {t : Tok} {l : List Tok} (h : bal [t] = 0) (hl : Nice l) : Nice (t :: l) := nice_append (nice_one h) hl

theorem nice_paren {l : List Tok} (hl : Nice l) : Nice (.chr 40 :: (l ++ [.chr 41])) := by
  refine ⟨by rw [bal_cons, bal_append, hl.1]; rfl, fun a b h => ?_⟩
  rcases a with _ | ⟨x, a⟩
  · simp [bal]
  · simp only [List.cons_append, List.cons.injEq] at h
    obtain ⟨rfl, h⟩ := h
    rw [bal_cons]
    have h1 : bal [Tok.chr 40] = 1 := rfl
    rw [h1]
    rcases List.append_eq_append_iff.mp h with ⟨c, h2, h3⟩ | ⟨c, h2, h3⟩
    · rw [h2, bal_append, hl.1]
      rcases c with _ | ⟨y, c⟩
      · simp [bal]
      · simp only [List.cons_append, List.cons.injEq] at h3
        obtain ⟨rfl, h3⟩ := h3
        have : c = [] := (List.append_eq_nil_iff.mp h3.symm).1
        rw [this]; decide
    · have := hl.2 a c h2
      omega

theorem num_nice (n : NumSyn) : Nice n.toks := by
  cases n <;> simp only [NumSyn.toks] <;>
    (repeat first | exact nice_one rfl | refine nice_cons rfl ?_)

theorem cond_nice (c : CondSyn) : Nice c.toks := by
  cases c with
  | cmp op s n => exact nice_cons rfl (nice_cons (by cases op <;> rfl) (num_nice n))
  | rangeO s lo hi =>
    have := nice_paren (nice_append (num_nice lo) (nice_cons (t := .chr 45) rfl (num_nice hi)))
    simp only [List.append_assoc, List.cons_append] at this
    exact nice_cons rfl (nice_cons rfl this)
  | rangeC s lo hi =>
    exact nice_cons rfl (nice_cons rfl (nice_cons rfl (nice_append (num_nice lo)
      (nice_cons rfl (nice_append (num_nice hi) (nice_one rfl))))))
  | date op s m d y =>
    exact nice_cons rfl (nice_cons (by cases op <;> rfl) (nice_cons rfl (nice_append (num_nice d) (nice_cons rfl (num_nice y)))))
  | dateRange s m d1 d2 y =>
    exact nice_cons rfl (nice_cons rfl (nice_cons rfl (nice_append (num_nice d1) (nice_cons rfl
      (nice_append (num_nice d2) (nice_cons rfl (num_nice y)))))))

theorem expr_nice : ∀ e : Expr, Nice e.toks
  | .leaf _ => nice_one rfl
  | .cond c => cond_nice c
  | .paren e => nice_paren (expr_nice e)
  | .or l r => nice_append (expr_nice l) (nice_cons rfl (expr_nice r))
  | .and l r => nice_append (expr_nice l) (nice_cons rfl (expr_nice r))

/-! ### The formula in front -/

/-- `e and r`, grouped as precedence says, where `e` is in parentheses. -/
def graftAnd (p : Expr) : Expr → Expr
  | .or l r => .or (graftAnd p l) r
  | .and l r => .and (graftAnd p l) r
  | .leaf s => .and p (.leaf s)
  | .cond c => .and p (.cond c)
  | .paren e => .and p (.paren e)

/-- `e or r`. -/
def graftOr (p : Expr) : Expr → Expr
  | .or l r => .or (graftOr p l) r
  | .and l r => .or p (.and l r)
  | .leaf s => .or p (.leaf s)
  | .cond c => .or p (.cond c)
  | .paren e => .or p (.paren e)

theorem graftAnd_toks (p : Expr) : ∀ r : Expr, (graftAnd p r).toks = p.toks ++ .and :: r.toks
  | .or l r => by simp [graftAnd, Expr.toks, graftAnd_toks p l]
  | .and l r => by simp [graftAnd, Expr.toks, graftAnd_toks p l]
  | .leaf s => rfl
  | .cond c => rfl
  | .paren e => rfl

theorem graftOr_toks (p : Expr) : ∀ r : Expr, (graftOr p r).toks = p.toks ++ .or :: r.toks
  | .or l r => by simp [graftOr, Expr.toks, graftOr_toks p l]
  | .and l r => rfl
  | .leaf s => rfl
  | .cond c => rfl
  | .paren e => rfl

theorem graftAnd_isOr (p : Expr) (r : Expr) (h : r.isOr = false) : (graftAnd p r).isOr = false := by
  cases r <;> simp_all [graftAnd, Expr.isOr]

theorem graftAnd_canon (p : Expr) (hp : p.canon = true) (ho : p.isOr = false) : ∀ r : Expr, r.canon = true → (graftAnd p r).canon = true
  | .or l r, h => by
    simp only [Expr.canon, Bool.and_eq_true, Bool.not_eq_true'] at h
    simp [graftAnd, Expr.canon, graftAnd_canon p hp ho l h.1.1, h]
  | .and l r, h => by
    simp only [Expr.canon, Bool.and_eq_true, Bool.not_eq_true'] at h
    simp [graftAnd, Expr.canon, graftAnd_canon p hp ho l h.1.1.1.1, h, graftAnd_isOr p l h.1.1.2]
  | .leaf s, h => by simp only [graftAnd, Expr.canon, hp, ho]; rfl
  | .cond c, h => by simp only [graftAnd, Expr.canon, hp, ho]; rfl
  | .paren e, h => by
    have h' : e.canon = true := h
    simp only [graftAnd, Expr.canon, hp, ho, h']; rfl

theorem graftOr_canon (p : Expr) (hp : p.canon = true) : ∀ r : Expr, r.canon = true → (graftOr p r).canon = true
  | .or l r, h => by
    simp only [Expr.canon, Bool.and_eq_true, Bool.not_eq_true'] at h
    simp [graftOr, Expr.canon, graftOr_canon p hp l h.1.1, h]
  | .and l r, h => by simp only [graftOr]; rw [Expr.canon, hp, h]; rfl
  | .leaf s, h => by simp [graftOr, Expr.canon, hp, Expr.isOr]
  | .cond c, h => by simp [graftOr, Expr.canon, hp, Expr.isOr]
  | .paren e, h => by
    have h' : e.canon = true := h
    simp [graftOr, Expr.canon, hp, Expr.isOr, h']

theorem graftAnd_valid (p : Expr) : ∀ r : Expr, (graftAnd p r).valid = (p.valid && r.valid)
  | .or l r => by simp [graftAnd, Expr.valid, graftAnd_valid p l, Bool.and_assoc]
  | .and l r => by simp [graftAnd, Expr.valid, graftAnd_valid p l, Bool.and_assoc]
  | .leaf s => rfl
  | .cond c => rfl
  | .paren e => rfl

theorem graftOr_valid (p : Expr) : ∀ r : Expr, (graftOr p r).valid = (p.valid && r.valid)
  | .or l r => by simp [graftOr, Expr.valid, graftOr_valid p l, Bool.and_assoc]
  | .and l r => rfl
  | .leaf s => rfl
  | .cond c => rfl
  | .paren e => rfl

theorem graftAnd_conds (p : Expr) : ∀ r : Expr, (graftAnd p r).conds = p.conds ++ r.conds
  | .or l r => by simp [graftAnd, Expr.conds, graftAnd_conds p l]
  | .and l r => by simp [graftAnd, Expr.conds, graftAnd_conds p l]
  | .leaf s => rfl
  | .cond c => rfl
  | .paren e => rfl

theorem graftOr_conds (p : Expr) : ∀ r : Expr, (graftOr p r).conds = p.conds ++ r.conds
  | .or l r => by simp [graftOr, Expr.conds, graftOr_conds p l]
  | .and l r => rfl
  | .leaf s => rfl
  | .cond c => rfl
  | .paren e => rfl

/-! ### What is behind the formula is a formula -/

theorem behind (s : Expr) (op : Tok) (hop : op = .and ∨ op = .or) : ∀ (x : Expr) (ρ : List Tok), x.valid = true → x.canon = true →
    x.toks = (.chr 40 :: (s.toks ++ [.chr 41])) ++ op :: ρ →
    ∃ e : Expr, e.valid = true ∧ e.canon = true ∧ e.toks = ρ ∧ (op = .and → x.isOr = false → e.isOr = false)
  | .leaf _, ρ, _, _, h => by simp [Expr.toks] at h
  | .cond c, ρ, _, _, h => by cases c <;> simp [Expr.toks, CondSyn.toks] at h
  | .paren x, ρ, hv, hc, h => by
    exfalso
    simp only [Expr.toks, List.cons_append, List.cons.injEq, true_and, List.append_assoc, List.nil_append] at h
    rcases List.eq_nil_or_concat ρ with rfl | ⟨ρ', z, rfl⟩
    · have := congrArg List.getLast? h
      rcases hop with rfl | rfl <;> simp at this
    · have e1 : s.toks ++ Tok.chr 41 :: op :: (ρ' ++ [z]) = (s.toks ++ Tok.chr 41 :: op :: ρ') ++ [z] := by simp
      rw [List.concat_eq_append, e1] at h
      have h2 := List.append_inj_left' h rfl
      have h3 := (expr_nice x).2 (s.toks ++ [.chr 41]) (op :: ρ') (by rw [h2]; simp)
      rw [bal_append, (expr_nice s).1] at h3
      revert h3; decide
  | .or l r, ρ, hv, hc, h => by
    simp only [Expr.valid, Bool.and_eq_true] at hv
    simp only [Expr.canon, Bool.and_eq_true, Bool.not_eq_true'] at hc
    simp only [Expr.toks] at h
    rcases List.append_eq_append_iff.mp h with ⟨c, h1, h2⟩ | ⟨c, h1, h2⟩
    · -- the group is at least as long as `l`
      rcases c with _ | ⟨y, c⟩
      · simp only [List.append_nil, List.nil_append, List.cons.injEq] at h1 h2
        refine ⟨r, hv.2, hc.1.2, h2.2, ?_⟩
        intro ho; rw [ho] at h2; exact absurd h2.1 (by decide)
      · exfalso
        -- `l` is a proper prefix of the group
        have hl0 := (expr_nice l).1
        have hne : l.toks ≠ [] := by
          intro h0; rw [h0] at h1
          simp only [List.nil_append, List.cons.injEq] at h1
          rw [← h1.1] at h2
          simp at h2
        obtain ⟨w, l', hl'⟩ := List.exists_cons_of_ne_nil hne
        rw [hl'] at h1 hl0
        simp only [List.cons_append, List.cons.injEq] at h1
        obtain ⟨rfl, h1⟩ := h1
        have hpre : 0 ≤ bal l' := by
          rcases List.append_eq_append_iff.mp h1 with ⟨z, h4, h5⟩ | ⟨z, h4, h5⟩
          · have hz : z = [] := by
              rcases z with _ | ⟨z0, z⟩
              · rfl
              · simp at h5
            rw [h4, hz, List.append_nil, (expr_nice s).1]
          · exact (expr_nice s).2 l' z h4
        rw [bal_cons] at hl0
        have : bal [Tok.chr 40] = 1 := rfl
        omega
    · rcases c with _ | ⟨y, c⟩
      · simp only [List.append_nil, List.nil_append, List.cons.injEq] at h1 h2
        refine ⟨r, hv.2, hc.1.2, h2.2.symm, ?_⟩
        intro ho; rw [ho] at h2; exact absurd h2.1 (by decide)
      · simp only [List.cons_append, List.cons.injEq] at h2
        obtain ⟨rfl, h2⟩ := h2
        obtain ⟨e, he1, he2, he3, _⟩ := behind s op hop l c hv.1 hc.1.1 h1
        refine ⟨.or e r, by simp [Expr.valid, he1, hv], by simp [Expr.canon, he2, hc], by simp [Expr.toks, he3, h2], ?_⟩
        intro _ h; simp [Expr.isOr] at h
  | .and l r, ρ, hv, hc, h => by
    simp only [Expr.valid, Bool.and_eq_true] at hv
    simp only [Expr.canon, Bool.and_eq_true, Bool.not_eq_true'] at hc
    simp only [Expr.toks] at h
    rcases List.append_eq_append_iff.mp h with ⟨c, h1, h2⟩ | ⟨c, h1, h2⟩
    · rcases c with _ | ⟨y, c⟩
      · simp only [List.append_nil, List.nil_append, List.cons.injEq] at h1 h2
        exact ⟨r, hv.2, hc.1.1.1.2, h2.2, fun _ _ => hc.1.2⟩
      · exfalso
        have hl0 := (expr_nice l).1
        have hne : l.toks ≠ [] := by
          intro h0; rw [h0] at h1
          simp only [List.nil_append, List.cons.injEq] at h1
          rw [← h1.1] at h2
          simp at h2
        obtain ⟨w, l', hl'⟩ := List.exists_cons_of_ne_nil hne
        rw [hl'] at h1 hl0
        simp only [List.cons_append, List.cons.injEq] at h1
        obtain ⟨rfl, h1⟩ := h1
        have hpre : 0 ≤ bal l' := by
          rcases List.append_eq_append_iff.mp h1 with ⟨z, h4, h5⟩ | ⟨z, h4, h5⟩
          · have hz : z = [] := by
              rcases z with _ | ⟨z0, z⟩
              · rfl
              · simp at h5
            rw [h4, hz, List.append_nil, (expr_nice s).1]
          · exact (expr_nice s).2 l' z h4
        rw [bal_cons] at hl0
        have : bal [Tok.chr 40] = 1 := rfl
        omega
    · rcases c with _ | ⟨y, c⟩
      · simp only [List.append_nil, List.nil_append, List.cons.injEq] at h1 h2
        exact ⟨r, hv.2, hc.1.1.1.2, h2.2.symm, fun _ _ => hc.1.2⟩
      · simp only [List.cons_append, List.cons.injEq] at h2
        obtain ⟨rfl, h2⟩ := h2
        obtain ⟨e, he1, he2, he3, he4⟩ := behind s op hop l c hv.1 hc.1.1.1.1 h1
        rcases hop with rfl | rfl
        · refine ⟨.and e r, by simp [Expr.valid, he1, hv], ?_, by simp [Expr.toks, he3, h2], fun _ _ => rfl⟩
          simp [Expr.canon, he2, hc, he4 rfl hc.1.1.2]
        · -- a formula with `or` cannot be the left of `and`
          exfalso
          exact absurd h1 (by
            intro h1
            exact or_in_and l s c hc.1.1.1.1 hc.1.1.2 h1)
where
  or_in_and : ∀ (l s : Expr) (c : List Tok), l.canon = true → l.isOr = false →
      l.toks = (.chr 40 :: (s.toks ++ [.chr 41])) ++ .or :: c → False
    | .leaf _, _, _, _, _, h => by simp [Expr.toks] at h
    | .cond c, _, _, _, _, h => by cases c <;> simp [Expr.toks, CondSyn.toks] at h
    | .or _ _, _, _, _, h, _ => by simp [Expr.isOr] at h
    | .paren x, s, ρ, _, _, h => by
      simp only [Expr.toks, List.cons_append, List.cons.injEq, true_and, List.append_assoc, List.nil_append] at h
      rcases List.eq_nil_or_concat ρ with rfl | ⟨ρ', z, rfl⟩
      · have := congrArg List.getLast? h
        simp at this
      · have e1 : s.toks ++ Tok.chr 41 :: Tok.or :: (ρ' ++ [z]) = (s.toks ++ Tok.chr 41 :: Tok.or :: ρ') ++ [z] := by simp
        rw [List.concat_eq_append, e1] at h
        have h2 := List.append_inj_left' h rfl
        have h3 := (expr_nice x).2 (s.toks ++ [.chr 41]) (.or :: ρ') (by rw [h2]; simp)
        rw [bal_append, (expr_nice s).1] at h3
        revert h3; decide
    | .and l r, s, ρ, hc, _, h => by
      simp only [Expr.canon, Bool.and_eq_true, Bool.not_eq_true'] at hc
      simp only [Expr.toks] at h
      rcases List.append_eq_append_iff.mp h with ⟨c, h1, h2⟩ | ⟨c, h1, h2⟩
      · rcases c with _ | ⟨y, c⟩
        · simp only [List.append_nil, List.nil_append, List.cons.injEq] at h1 h2
          exact absurd h2.1 (by decide)
        · have hl0 := (expr_nice l).1
          have hne : l.toks ≠ [] := by
            intro h0; rw [h0] at h1
            simp only [List.nil_append, List.cons.injEq] at h1
            rw [← h1.1] at h2
            simp at h2
          obtain ⟨w, l', hl'⟩ := List.exists_cons_of_ne_nil hne
          rw [hl'] at h1 hl0
          simp only [List.cons_append, List.cons.injEq] at h1
          obtain ⟨rfl, h1⟩ := h1
          have hpre : 0 ≤ bal l' := by
            rcases List.append_eq_append_iff.mp h1 with ⟨z, h4, h5⟩ | ⟨z, h4, h5⟩
            · have hz : z = [] := by
                rcases z with _ | ⟨z0, z⟩
                · rfl
                · simp at h5
              rw [h4, hz, List.append_nil, (expr_nice s).1]
            · exact (expr_nice s).2 l' z h4
          rw [bal_cons] at hl0
          have : bal [Tok.chr 40] = 1 := rfl
          omega
      · rcases c with _ | ⟨y, c⟩
        · simp only [List.append_nil, List.nil_append, List.cons.injEq] at h1 h2
          exact absurd h2.1 (by decide)
        · simp only [List.cons_append, List.cons.injEq] at h2
          obtain ⟨rfl, h2⟩ := h2
          exact or_in_and l s c hc.1.1.1.1 hc.1.1.2 h1

/-! ### The counters of the driver do not matter for what a tree means -/

/-- The same outcome, and trees that the same attributes satisfy. -/
def SameSat : Res (TNode × Drv) → Res (TNode × Drv) → Prop
  | .ok x, .ok y => ∀ A, sat A x.1 = sat A y.1
  | .throw e, .throw e' => e = e'
  | .ub, .ub => True
  | .abort, .abort => True
  | _, _ => False

theorem sameSat_bind {r r' : Res (TNode × Drv)} {f g : TNode × Drv → Res (TNode × Drv)} (h : SameSat r r')
    (hfg : ∀ x y : TNode × Drv, (∀ A, sat A x.1 = sat A y.1) → SameSat (f x) (g y)) : SameSat (r.bind f) (r'.bind g) := by
  cases r <;> cases r' <;> simp only [SameSat] at h
  · exact hfg _ _ h
  · exact h
  · trivial
  · trivial

theorem sat_kof2 (A : List Bytes) (k : Nat) (hk : k = 1 ∨ k = 2) (l r : TNode) :
    sat A (kof2 k l r) = if k = 1 then sat A l || sat A r else sat A l && sat A r := by
  rcases hk with rfl | rfl <;> simp [kof2, sat, satL]

theorem leaf_same (d d' : Drv) (c : Bytes) : SameSat (leafNode d c) (leafNode d' c) := by
  unfold leafNode
  cases checkAttribute c with
  | ok pa =>
    simp only [Res.ok_bind]
    cases SMap.find c d.attrCount <;> cases SMap.find c d'.attrCount <;> (intro A; simp [sat])
  | throw e => exact rfl
  | ub => trivial
  | abort => trivial

theorem bitLoop_same (fx gt : Bool) (attr : Bytes) (bits v : Nat) : ∀ (n i : Nat) (p q : TNode) (d d' : Drv),
    (∀ A, sat A p = sat A q) → SameSat (bitLoop fx gt attr bits v n i p d) (bitLoop fx gt attr bits v n i q d')
  | 0, _, _, _, _, _, h => h
  | n + 1, i, p, q, d, d', h => by
    simp only [bitLoop]
    split
    · trivial
    · refine sameSat_bind (leaf_same _ _ _) fun x y hxy => bitLoop_same fx gt attr bits v n _ _ _ _ _ fun A => ?_
      have hk : ∀ (b c : Bool), (if b = true then (if c = true then 2 else 1) else (if c = true then 1 else 2)) = 1 ∨
          (if b = true then (if c = true then 2 else 1) else (if c = true then 1 else 2)) = 2 := by decide
      rw [sat_kof2 A _ (hk _ _), sat_kof2 A _ (hk _ _), h, hxy]

theorem eqLoop_same (fx : Bool) (c : Bytes) (bc v : Nat) : ∀ (i : Nat) (p q : TNode) (d d' : Drv),
    (∀ A, sat A p = sat A q) → SameSat (eqLoop fx c bc v i p d) (eqLoop fx c bc v i q d')
  | 0, _, _, _, _, h => h
  | i + 1, p, q, d, d', h => by
    simp only [eqLoop]
    refine sameSat_bind (leaf_same _ _ _) fun x y hxy => eqLoop_same fx c bc v i _ _ _ _ fun A => ?_
    rw [sat_kof2 A _ (Or.inr rfl), sat_kof2 A _ (Or.inr rfl), h, hxy]

theorem cmp_same (d d' : Drv) (n : UInteger) (gt : Bool) (attr : Bytes) :
    SameSat (cmpPolicy d n gt attr) (cmpPolicy d' n gt attr) := by
  simp only [cmpPolicy, bitMarkerList]
  split
  · trivial
  · exact sameSat_bind (leaf_same _ _ _) fun x y hxy => bitLoop_same _ _ _ _ _ _ _ _ _ _ _ hxy

theorem compile_same' (c : NumCond) (d d' : Drv) (base : Bytes) : SameSat (c.compile d base) (c.compile d' base) := by
  cases c with
  | lt n => exact cmp_same d d' n false base
  | gt n => exact cmp_same d d' n true base
  | le n => exact cmp_same d d' n.add1 false base
  | ge n => exact cmp_same d d' n.sub1 true base
  | eq n =>
    simp only [NumCond.compile, eqPolicy]
    exact sameSat_bind (leaf_same _ _ _) fun x y hxy => eqLoop_same _ _ _ _ _ _ _ _ _ hxy
  | inOpen lo hi =>
    simp only [NumCond.compile, rangePolicy, gtPolicy, ltPolicy]
    refine sameSat_bind (cmp_same _ _ _ _ _) fun x y hxy => sameSat_bind (cmp_same _ _ _ _ _) fun u w huw A => ?_
    simp [sat, satL, hxy, huw]
  | inClosed lo hi =>
    simp only [NumCond.compile, rangeInclPolicy, gePolicy, lePolicy]
    refine sameSat_bind (cmp_same _ _ _ _ _) fun x y hxy => sameSat_bind (cmp_same _ _ _ _ _) fun u w huw A => ?_
    simp [sat, satL, hxy, huw]

theorem eval_same : ∀ (e : Expr) (d d' : Drv), SameSat (e.eval mk d) (e.eval mk d')
  | .leaf s, d, d' => leaf_same d d' s
  | .cond c, d, d' => compile_same' _ d d' _
  | .paren e, d, d' => eval_same e d d'
  | .or l r, d, d' => by
    simp only [Expr.eval]
    refine sameSat_bind (eval_same l d d') fun x y hxy => sameSat_bind (eval_same r _ _) fun u w huw A => ?_
    rw [sat_kof2 A _ (Or.inl rfl), sat_kof2 A _ (Or.inl rfl), hxy, huw]
  | .and l r, d, d' => by
    simp only [Expr.eval]
    refine sameSat_bind (eval_same l d d') fun x y hxy => sameSat_bind (eval_same r _ _) fun u w huw A => ?_
    rw [sat_kof2 A _ (Or.inr rfl), sat_kof2 A _ (Or.inr rfl), hxy, huw]

theorem met_iff {e : Expr} {d d' : Drv} {t : TNode} (h : e.eval mk d = .ok (t, d')) (A : List Bytes) :
    e.Met mk A ↔ sat A t = true := by
  have hs := eval_same (mk := mk) e d {}
  rw [h] at hs
  unfold Expr.Met
  cases hx : e.eval mk {} with
  | ok x =>
    rw [hx] at hs
    have := hs A
    constructor
    · rintro ⟨t', d2, h1, h2⟩; cases h1; rw [this]; exact h2
    · intro h2; exact ⟨x.1, x.2, rfl, by rw [← this]; exact h2⟩
  | throw e => rw [hx] at hs; exact hs.elim
  | ub => rw [hx] at hs; exact hs.elim
  | abort => rw [hx] at hs; exact hs.elim

theorem met_gate {l r : Expr} {d d' : Drv} {t : TNode} (h : (Expr.or l r).eval mk d = .ok (t, d')) (A : List Bytes) :
    (sat A t = true ↔ l.Met mk A ∨ r.Met mk A) := by
  simp only [Expr.eval] at h
  obtain ⟨x, hx, h1⟩ := (Res.bind_eq_ok _ _ _).mp h
  obtain ⟨y, hy, h2⟩ := (Res.bind_eq_ok _ _ _).mp h1
  cases h2
  rw [sat_kof2 A _ (Or.inl rfl), met_iff hx, met_iff hy]
  simp

theorem met_gate_and {l r : Expr} {d d' : Drv} {t : TNode} (h : (Expr.and l r).eval mk d = .ok (t, d')) (A : List Bytes) :
    (sat A t = true ↔ l.Met mk A ∧ r.Met mk A) := by
  simp only [Expr.eval] at h
  obtain ⟨x, hx, h1⟩ := (Res.bind_eq_ok _ _ _).mp h
  obtain ⟨y, hy, h2⟩ := (Res.bind_eq_ok _ _ _).mp h1
  cases h2
  rw [sat_kof2 A _ (Or.inr rfl), met_iff hx, met_iff hy]
  simp

/-- No condition is undefined, and names are names: the tree exists. -/
def Fine (mk : Mktime) (e : Expr) : Prop := ∃ t d, e.eval mk {} = .ok (t, d)

theorem fine_eval {e : Expr} (h : Fine mk e) (d : Drv) : ∃ t d', e.eval mk d = .ok (t, d') := by
  obtain ⟨t, d', h⟩ := h
  have hs := eval_same (mk := mk) e {} d
  rw [h] at hs
  cases hx : e.eval mk d with
  | ok x => exact ⟨x.1, x.2, rfl⟩
  | throw e => rw [hx] at hs; exact hs.elim
  | ub => rw [hx] at hs; exact hs.elim
  | abort => rw [hx] at hs; exact hs.elim

theorem fine_of {e : Expr} {d d' : Drv} {t : TNode} (h : e.eval mk d = .ok (t, d')) : Fine mk e := by
  have hs := eval_same (mk := mk) e d {}
  rw [h] at hs
  cases hx : e.eval mk {} with
  | ok x => exact ⟨x.1, x.2, hx⟩
  | throw e => rw [hx] at hs; exact hs.elim
  | ub => rw [hx] at hs; exact hs.elim
  | abort => rw [hx] at hs; exact hs.elim

theorem fine_or (l r : Expr) : Fine mk (.or l r) ↔ Fine mk l ∧ Fine mk r := by
  constructor
  · rintro ⟨t, d, h⟩
    simp only [Expr.eval] at h
    obtain ⟨x, hx, h1⟩ := (Res.bind_eq_ok _ _ _).mp h
    obtain ⟨y, hy, _⟩ := (Res.bind_eq_ok _ _ _).mp h1
    exact ⟨fine_of hx, fine_of hy⟩
  · rintro ⟨⟨t, d, h1⟩, h2⟩
    obtain ⟨u, d', h3⟩ := fine_eval h2 d
    exact ⟨kof2 1 t u, d', by simp only [Expr.eval, h1, h3, Res.ok_bind]⟩

theorem fine_and (l r : Expr) : Fine mk (.and l r) ↔ Fine mk l ∧ Fine mk r := by
  constructor
  · rintro ⟨t, d, h⟩
    simp only [Expr.eval] at h
    obtain ⟨x, hx, h1⟩ := (Res.bind_eq_ok _ _ _).mp h
    obtain ⟨y, hy, _⟩ := (Res.bind_eq_ok _ _ _).mp h1
    exact ⟨fine_of hx, fine_of hy⟩
  · rintro ⟨⟨t, d, h1⟩, h2⟩
    obtain ⟨u, d', h3⟩ := fine_eval h2 d
    exact ⟨kof2 2 t u, d', by simp only [Expr.eval, h1, h3, Res.ok_bind]⟩

theorem met_or {l r : Expr} (h : Fine mk (.or l r)) (A : List Bytes) : (Expr.or l r).Met mk A ↔ l.Met mk A ∨ r.Met mk A := by
  obtain ⟨t, d, h⟩ := h
  rw [met_iff h, met_gate h]

theorem met_and {l r : Expr} (h : Fine mk (.and l r)) (A : List Bytes) : (Expr.and l r).Met mk A ↔ l.Met mk A ∧ r.Met mk A := by
  obtain ⟨t, d, h⟩ := h
  rw [met_iff h, met_gate_and h]

theorem fine_graftAnd (p : Expr) : ∀ r : Expr, Fine mk (graftAnd p r) ↔ Fine mk p ∧ Fine mk r
  | .or l r => by simp only [graftAnd, fine_or, fine_graftAnd p l, and_assoc]
  | .and l r => by simp only [graftAnd, fine_and, fine_graftAnd p l, and_assoc]
  | .leaf s => fine_and _ _
  | .cond c => fine_and _ _
  | .paren e => fine_and _ _

theorem fine_graftOr (p : Expr) : ∀ r : Expr, Fine mk (graftOr p r) ↔ Fine mk p ∧ Fine mk r
  | .or l r => by simp only [graftOr, fine_or, fine_graftOr p l, and_assoc]
  | .and l r => fine_or _ _
  | .leaf s => fine_or _ _
  | .cond c => fine_or _ _
  | .paren e => fine_or _ _

theorem met_graftOr (p : Expr) (A : List Bytes) : ∀ r : Expr, Fine mk (graftOr p r) →
    ((graftOr p r).Met mk A ↔ p.Met mk A ∨ r.Met mk A)
  | .or l r, h => by
    have h' := h
    simp only [graftOr] at h ⊢
    rw [met_or h, met_graftOr p A l ((fine_or _ _).mp h).1, met_or (((fine_graftOr p _).mp h').2), or_assoc]
  | .and l r, h => met_or h A
  | .leaf s, h => met_or h A
  | .cond c, h => met_or h A
  | .paren e, h => met_or h A

theorem alts_ne (e : Expr) : ∃ x xs, e.alts = x :: xs := by
  induction e with
  | or l r ihl _ => obtain ⟨x, xs, h⟩ := ihl; exact ⟨x, xs ++ [r], by simp [Expr.alts, h]⟩
  | _ => exact ⟨_, _, rfl⟩

theorem met_graftAnd_noOr (p : Expr) (A : List Bytes) : ∀ r : Expr, r.canon = true → r.isOr = false → Fine mk (graftAnd p r) →
    ((graftAnd p r).Met mk A ↔ p.Met mk A ∧ r.Met mk A)
  | .or l r, _, h, _ => by simp [Expr.isOr] at h
  | .and l r, hc, _, h => by
    simp only [Expr.canon, Bool.and_eq_true, Bool.not_eq_true'] at hc
    have h' := h
    simp only [graftAnd] at h ⊢
    rw [met_and h, met_graftAnd_noOr p A l hc.1.1.1.1 hc.1.1.2 ((fine_and _ _).mp h).1,
      met_and (((fine_graftAnd p _).mp h').2), and_assoc]
  | .leaf s, _, _, h => met_and h A
  | .cond c, _, _, h => met_and h A
  | .paren e, _, _, h => met_and h A

theorem alts_single {e : Expr} (h : e.isOr = false) : e.alts = [e] := by
  cases e with
  | or l r => simp [Expr.isOr] at h
  | _ => rfl

theorem met_graftAnd (p : Expr) (A : List Bytes) : ∀ (r x : Expr) (xs : List Expr), r.canon = true → r.alts = x :: xs → Fine mk (graftAnd p r) →
    ((graftAnd p r).Met mk A ↔ (p.Met mk A ∧ x.Met mk A) ∨ ∃ y ∈ xs, y.Met mk A)
  | .or l r, x, xs, hc, ha, h => by
    simp only [Expr.canon, Bool.and_eq_true, Bool.not_eq_true'] at hc
    obtain ⟨x', xs', hl⟩ := alts_ne l
    simp only [Expr.alts, hl, List.cons_append, List.cons.injEq] at ha
    obtain ⟨rfl, rfl⟩ := ha
    simp only [graftAnd] at h ⊢
    rw [met_or h, met_graftAnd p A l _ _ hc.1.1 hl ((fine_or _ _).mp h).1]
    simp only [List.mem_append, List.mem_singleton, or_assoc]
    refine or_congr Iff.rfl ⟨?_, ?_⟩
    · rintro (⟨y, hy, hm⟩ | hm)
      · exact ⟨y, Or.inl hy, hm⟩
      · exact ⟨r, Or.inr rfl, hm⟩
    · rintro ⟨y, hy | rfl, hm⟩
      · exact Or.inl ⟨y, hy, hm⟩
      · exact Or.inr hm
  | .and l r, x, xs, hc, ha, h => by
    cases ha
    rw [met_graftAnd_noOr p A _ hc rfl h]; simp
  | .leaf s, x, xs, hc, ha, h => by
    cases ha
    rw [met_graftAnd_noOr p A _ hc rfl h]; simp
  | .cond c, x, xs, hc, ha, h => by
    cases ha
    rw [met_graftAnd_noOr p A _ hc rfl h]; simp
  | .paren e, x, xs, hc, ha, h => by
    cases ha
    rw [met_graftAnd_noOr p A _ hc rfl h]; simp

end Edit
end Abe
