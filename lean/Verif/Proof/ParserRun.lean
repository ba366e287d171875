import Verif.Spec.Grammar
/-!
# The parser accepts every derivable token string and builds the tree of the canonical derivation
-/
set_option linter.unusedSimpArgs false
set_option linter.unusedSectionVars false
set_option autoImplicit false
namespace Abe

theorem sym_le (t : Tok) : t.sym ≤ 30 := by
  cases t <;> simp only [Tok.sym] <;> first | decide | (repeat' (first | decide | split))

theorem la_le (ts : List Tok) : la ts ≤ 30 := by
  cases ts with
  | nil => simp [la]
  | cons t ts => exact sym_le t

/-- After `k` rounds the run from `c` goes on as `F` says. -/
def Ev (mk : Mktime) (k : Nat) (c : PConf) (F : Nat → Res (Bool × Drv)) : Prop :=
  ∀ f, yyRun mk (k + f) c = F f

variable {mk : Mktime}

theorem Ev.refl (c : PConf) : Ev mk 0 c (fun f => yyRun mk f c) := fun f => by simp

theorem Ev.cast {k k' : Nat} {c : PConf} {F : Nat → Res (Bool × Drv)} (h : k = k') (e : Ev mk k c F) :
    Ev mk k' c F := h ▸ e

theorem Ev.bind {α : Type} {k k' : Nat} {c : PConf} {R : Res α} {c' : α → PConf}
    {F : α → Nat → Res (Bool × Drv)}
    (h : Ev mk k c (fun f => R.bind fun x => yyRun mk f (c' x))) (h' : ∀ x, Ev mk k' (c' x) (F x)) :
    Ev mk (k + k') c (fun f => R.bind fun x => F x f) := by
  intro f
  rw [Nat.add_assoc, h (k' + f)]
  cases R with
  | ok x => exact h' x f
  | throw e => rfl
  | ub => rfl
  | abort => rfl

theorem Ev.shift {k s : Nat} {v : SVal} {st : List (Nat × SVal)} {d : Drv} {t : Tok} {ts : List Tok}
    {F : Nat → Res (Bool × Drv)} (n : Nat) (hs : s ≠ 10) (hl : yyLook s t.sym = some (Int.ofNat n))
    (hn : 0 < n) (h : Ev mk k ⟨(n, t.val) :: (s, v) :: st, d, ts⟩ F) :
    Ev mk (1 + k) ⟨(s, v) :: st, d, t :: ts⟩ F := by
  intro f
  rw [Nat.add_assoc, Nat.add_comm 1]
  have hn' : ¬ ((n : Int) ≤ 0) := by omega
  simp only [yyRun, yyStep, la, laVal, hs, if_false, hl, hn', Int.toNat_natCast, Int.ofNat_eq_natCast, List.tail_cons]
  exact h f

theorem yyRun_reduce {s : Nat} {v : SVal} {pops : List (Nat × SVal)} {s0 : Nat} {v0 : SVal}
    {st : List (Nat × SVal)} {d : Drv} {ts : List Tok} {r f : Nat} (hs : s ≠ 10)
    (hl : yyLook s (la ts) = none) (hr : (yyDefact.getD s 0).toNat = r) (r0 : r ≠ 0)
    (hlen : (yyR2.getD r 0).toNat = pops.length + 1) :
    yyRun mk (f + 1) ⟨(s, v) :: (pops ++ (s0, v0) :: st), d, ts⟩ =
      (act mk r (v :: pops.map Prod.snd) d).bind fun o =>
        match o with
        | some x => yyRun mk f ⟨(yyGoto s0 (yyR1.getD r 0).toNat, x.1) :: (s0, v0) :: st, x.2, ts⟩
        | none => .ok (false, d) := by
  have hd : List.drop (pops.length + 1) ((s, v) :: (pops ++ (s0, v0) :: st)) = (s0, v0) :: st := by simp
  have ht : List.map Prod.snd (List.take (pops.length + 1) ((s, v) :: (pops ++ (s0, v0) :: st))) =
      v :: pops.map Prod.snd := by simp
  simp only [yyRun, yyStep, hs, if_false, hl, hr, r0, yyReduce, hlen, hd, ht]
  cases act mk r (v :: pops.map Prod.snd) d with
  | ok o =>
    cases o with
    | none => rfl
    | some x => rfl
  | throw e => rfl
  | ub => rfl
  | abort => rfl

/-- Reduction by a rule whose action builds a tree. -/
theorem Ev.reduce {s : Nat} {v : SVal} {pops : List (Nat × SVal)} {s0 : Nat} {v0 : SVal}
    {st : List (Nat × SVal)} {d : Drv} {ts : List Tok} {α : Type} {R : Res α} {g : α → SVal × Drv} (r g' : Nat)
    (hs : s ≠ 10)
    (hl : yyLook s (la ts) = none) (hr : (yyDefact.getD s 0).toNat = r) (r0 : r ≠ 0)
    (hlen : (yyR2.getD r 0).toNat = pops.length + 1)
    (ha : act mk r (v :: pops.map Prod.snd) d = R.bind fun x => .ok (some (g x)))
    (hg : yyGoto s0 (yyR1.getD r 0).toNat = g') :
    Ev mk 1 ⟨(s, v) :: (pops ++ (s0, v0) :: st), d, ts⟩
      (fun f => R.bind fun x => yyRun mk f ⟨(g', (g x).1) :: (s0, v0) :: st, (g x).2, ts⟩) := by
  intro f
  rw [Nat.add_comm, yyRun_reduce hs hl hr r0 hlen, ha]
  subst hg
  cases R with
  | ok x => rfl
  | throw e => rfl
  | ub => rfl
  | abort => rfl

/-- Reduction by a rule whose action builds a tree. -/
theorem Ev.reduceT {s : Nat} {v : SVal} {pops : List (Nat × SVal)} {s0 : Nat} {v0 : SVal}
    {st : List (Nat × SVal)} {d : Drv} {ts : List Tok} (R : Res (TNode × Drv)) (r g' : Nat)
    (hs : s ≠ 10)
    (hl : yyLook s (la ts) = none) (hr : (yyDefact.getD s 0).toNat = r) (r0 : r ≠ 0)
    (hlen : (yyR2.getD r 0).toNat = pops.length + 1)
    (ha : act mk r (v :: pops.map Prod.snd) d = treeAct R)
    (hg : yyGoto s0 (yyR1.getD r 0).toNat = g') :
    Ev mk 1 ⟨(s, v) :: (pops ++ (s0, v0) :: st), d, ts⟩
      (fun f => R.bind fun x => yyRun mk f ⟨(g', .tree x.1) :: (s0, v0) :: st, x.2, ts⟩) :=
  Ev.reduce (R := R) (g := fun x => (SVal.tree x.1, x.2)) r g' hs hl hr r0 hlen ha hg

/-- Reduction followed by the rest of the run. -/
theorem Ev.reduceThen {k s : Nat} {v : SVal} {pops : List (Nat × SVal)} {s0 : Nat} {v0 : SVal}
    {st : List (Nat × SVal)} {d : Drv} {ts : List Tok} {w : SVal} {d' : Drv} {F : Nat → Res (Bool × Drv)}
    (r g' : Nat) (hs : s ≠ 10)
    (hl : yyLook s (la ts) = none) (hr : (yyDefact.getD s 0).toNat = r) (r0 : r ≠ 0)
    (hlen : (yyR2.getD r 0).toNat = pops.length + 1)
    (ha : act mk r (v :: pops.map Prod.snd) d = .ok (some (w, d')))
    (hg : yyGoto s0 (yyR1.getD r 0).toNat = g')
    (h : Ev mk k ⟨(g', w) :: (s0, v0) :: st, d', ts⟩ F) :
    Ev mk (1 + k) ⟨(s, v) :: (pops ++ (s0, v0) :: st), d, ts⟩ F := by
  intro f
  rw [Nat.add_assoc, Nat.add_comm 1, yyRun_reduce hs hl hr r0 hlen, ha]
  subst hg
  exact h f

/-! ### Numbers -/

/-- Rounds spent on a number. -/
def NumSyn.steps : NumSyn → Nat
  | .exp _ _ => 4
  | .flex _ => 2

theorem look24 : ∀ n, n ≤ 30 → n ≠ 20 → yyLook 24 n = none := by decide

theorem NumSyn.sim {n : NumSyn} (hv : n.valid = true) {k s : Nat} {v : SVal} {st : List (Nat × SVal)} {d : Drv}
    {ts : List Tok} {F : Nat → Res (Bool × Drv)} (g : Nat) (hs : s ≠ 10)
    (h5 : yyLook s 5 = some (Int.ofNat 24)) (hg : yyGoto s 33 = g) (hla : la ts ≠ 20)
    (h : Ev mk k ⟨(g, .num n.val) :: (s, v) :: st, d, ts⟩ F) :
    Ev mk (n.steps + k) ⟨(s, v) :: st, d, n.toks ++ ts⟩ F := by
  cases n with
  | flex n =>
    refine Ev.cast (k := 1 + (1 + k)) (by simp [NumSyn.steps]; omega) ?_
    refine Ev.shift 24 hs h5 (by decide) ?_
    exact Ev.reduceThen (pops := []) 5 g (by decide) (look24 _ (la_le ts) hla) rfl (by decide) rfl rfl hg h
  | exp n b =>
    refine Ev.cast (k := 1 + (1 + (1 + (1 + k)))) (by simp [NumSyn.steps]; omega) ?_
    refine Ev.shift 24 hs h5 (by decide) ?_
    refine Ev.shift 43 (by decide) rfl (by decide) ?_
    refine Ev.shift 52 (by decide) rfl (by decide) ?_
    have hb : checkValidBit n b = true := hv
    exact Ev.reduceThen (pops := [(43, .none), (24, .uint n)]) 4 g (by decide) rfl rfl (by decide) rfl
      (by simp [act, hb, Tok.val, NumSyn.val]) hg h

/-! ### Policies -/

/-- Symbols that can follow a policy. -/
def Follow (ts : List Tok) : Prop := la ts = 0 ∨ la ts = 9 ∨ la ts = 10 ∨ la ts = 24

theorem Follow.ne20 {ts : List Tok} (h : Follow ts) : la ts ≠ 20 := by
  rcases h with h | h | h | h <;> omega

theorem look4 : ∀ n, n = 0 ∨ n = 9 ∨ n = 10 ∨ n = 24 → yyLook 4 n = none := by
  rintro n (rfl | rfl | rfl | rfl) <;> rfl

/-- States in which a policy may start, with the state after it. -/
def PStart (s g : Nat) : Prop := (s = 1 ∧ g = 6) ∨ (s = 5 ∧ g = 18) ∨ (s = 19 ∧ g = 38) ∨ (s = 20 ∧ g = 39)

theorem PStart.facts {s g : Nat} (h : PStart s g) : s ≠ 10 ∧ yyLook s 4 = some (Int.ofNat 4) ∧
    yyLook s 23 = some (Int.ofNat 5) ∧ yyGoto s 34 = g := by
  rcases h with ⟨rfl, rfl⟩ | ⟨rfl, rfl⟩ | ⟨rfl, rfl⟩ | ⟨rfl, rfl⟩ <;>
    exact ⟨by decide, rfl, rfl, rfl⟩

/-- Rounds spent on a condition. -/
def CondSyn.steps : CondSyn → Nat
  | .cmp _ _ n => n.steps + 3
  | .rangeO _ lo hi => lo.steps + hi.steps + 6
  | .rangeC _ lo hi => lo.steps + hi.steps + 6
  | .date _ _ _ d y => d.steps + y.steps + 5
  | .dateRange _ _ d1 d2 y => d1.steps + d2.steps + y.steps + 6

theorem laNe {t : Tok} {ts : List Tok} {n : Nat} (h : t.sym ≠ n) : la (t :: ts) ≠ n := h

theorem CondSyn.sim {c : CondSyn} (hv : c.valid = true) {s g : Nat} (hst : PStart s g) {v : SVal}
    {st : List (Nat × SVal)} {d : Drv} {ts : List Tok} (hf : Follow ts) :
    Ev mk c.steps ⟨(s, v) :: st, d, c.toks ++ ts⟩
      (fun f => ((c.cond mk).compile d c.base).bind fun x =>
        yyRun mk f ⟨(g, .tree x.1) :: (s, v) :: st, x.2, ts⟩) := by
  obtain ⟨hs, h4, h23, hg⟩ := hst.facts
  have n20 := hf.ne20
  cases c with
  | cmp op a n =>
    refine Ev.cast (k := 1 + (1 + (n.steps + 1))) (by simp [CondSyn.steps]; omega) ?_
    refine Ev.shift 4 hs h4 (by decide) ?_
    cases op with
    | lt =>
      refine Ev.shift 15 (by decide) rfl (by decide) ?_
      refine NumSyn.sim hv 33 (by decide) rfl rfl n20 ?_
      exact Ev.reduceT (pops := [(15, .none), (4, .str a)]) _ 9 g (by decide) rfl rfl (by decide) rfl rfl hg
    | gt =>
      refine Ev.shift 16 (by decide) rfl (by decide) ?_
      refine NumSyn.sim hv 35 (by decide) rfl rfl n20 ?_
      exact Ev.reduceT (pops := [(16, .none), (4, .str a)]) _ 10 g (by decide) rfl rfl (by decide) rfl rfl hg
    | le =>
      refine Ev.shift 12 (by decide) rfl (by decide) ?_
      refine NumSyn.sim hv 27 (by decide) rfl rfl n20 ?_
      exact Ev.reduceT (pops := [(12, .none), (4, .str a)]) _ 11 g (by decide) rfl rfl (by decide) rfl rfl hg
    | ge =>
      refine Ev.shift 13 (by decide) rfl (by decide) ?_
      refine NumSyn.sim hv 29 (by decide) rfl rfl n20 ?_
      exact Ev.reduceT (pops := [(13, .none), (4, .str a)]) _ 12 g (by decide) rfl rfl (by decide) rfl rfl hg
    | eq =>
      refine Ev.shift 11 (by decide) rfl (by decide) ?_
      refine NumSyn.sim hv 25 (by decide) rfl rfl n20 ?_
      exact Ev.reduceT (pops := [(11, .none), (4, .str a)]) _ 13 g (by decide) rfl rfl (by decide) rfl rfl hg
  | rangeO a lo hi =>
    simp only [CondSyn.valid, Bool.and_eq_true] at hv
    refine Ev.cast (k := 1 + (1 + (1 + (lo.steps + (1 + (hi.steps + (1 + 1)))))))
      (by simp [CondSyn.steps]; omega) ?_
    simp only [CondSyn.toks, List.cons_append, List.append_assoc, List.nil_append]
    refine Ev.shift 4 hs h4 (by decide) ?_
    refine Ev.shift 14 (by decide) rfl (by decide) ?_
    refine Ev.shift 30 (by decide) rfl (by decide) ?_
    refine NumSyn.sim hv.1 46 (by decide) rfl rfl (laNe (by decide)) ?_
    refine Ev.shift 55 (by decide) rfl (by decide) ?_
    refine NumSyn.sim hv.2 64 (by decide) rfl rfl (laNe (by decide)) ?_
    refine Ev.shift 71 (by decide) rfl (by decide) ?_
    exact Ev.reduceT (pops := [(64, .num hi.val), (55, .none), (46, .num lo.val), (30, .none), (14, .none),
      (4, .str a)]) _ 15 g (by decide) rfl rfl (by decide) rfl rfl hg
  | rangeC a lo hi =>
    simp only [CondSyn.valid, Bool.and_eq_true] at hv
    refine Ev.cast (k := 1 + (1 + (1 + (lo.steps + (1 + (hi.steps + (1 + 1)))))))
      (by simp [CondSyn.steps]; omega) ?_
    simp only [CondSyn.toks, List.cons_append, List.append_assoc, List.nil_append]
    refine Ev.shift 4 hs h4 (by decide) ?_
    refine Ev.shift 14 (by decide) rfl (by decide) ?_
    refine Ev.shift 31 (by decide) rfl (by decide) ?_
    refine NumSyn.sim hv.1 47 (by decide) rfl rfl (laNe (by decide)) ?_
    refine Ev.shift 56 (by decide) rfl (by decide) ?_
    refine NumSyn.sim hv.2 65 (by decide) rfl rfl (laNe (by decide)) ?_
    refine Ev.shift 72 (by decide) rfl (by decide) ?_
    exact Ev.reduceT (pops := [(65, .num hi.val), (56, .none), (47, .num lo.val), (31, .none), (14, .none),
      (4, .str a)]) _ 16 g (by decide) rfl rfl (by decide) rfl rfl hg
  | date op a m dd y =>
    simp only [CondSyn.valid, Bool.and_eq_true] at hv
    refine Ev.cast (k := 1 + (1 + (1 + (dd.steps + (1 + (y.steps + 1))))))
      (by simp [CondSyn.steps]; omega) ?_
    simp only [CondSyn.toks, List.cons_append, List.append_assoc, List.nil_append]
    refine Ev.shift 4 hs h4 (by decide) ?_
    cases op with
    | lt =>
      refine Ev.shift 15 (by decide) rfl (by decide) ?_
      refine Ev.shift 32 (by decide) rfl (by decide) ?_
      refine NumSyn.sim hv.1 48 (by decide) rfl rfl (laNe (by decide)) ?_
      refine Ev.shift 57 (by decide) rfl (by decide) ?_
      refine NumSyn.sim hv.2 66 (by decide) rfl rfl n20 ?_
      exact Ev.reduceT (pops := [(57, .none), (48, .num dd.val), (32, .str m), (15, .none), (4, .str a)]) _ 20 g
        (by decide) rfl rfl (by decide) rfl rfl hg
    | gt =>
      refine Ev.shift 16 (by decide) rfl (by decide) ?_
      refine Ev.shift 34 (by decide) rfl (by decide) ?_
      refine NumSyn.sim hv.1 49 (by decide) rfl rfl (laNe (by decide)) ?_
      refine Ev.shift 58 (by decide) rfl (by decide) ?_
      refine NumSyn.sim hv.2 67 (by decide) rfl rfl n20 ?_
      exact Ev.reduceT (pops := [(58, .none), (49, .num dd.val), (34, .str m), (16, .none), (4, .str a)]) _ 19 g
        (by decide) rfl rfl (by decide) rfl rfl hg
    | le =>
      refine Ev.shift 12 (by decide) rfl (by decide) ?_
      refine Ev.shift 26 (by decide) rfl (by decide) ?_
      refine NumSyn.sim hv.1 44 (by decide) rfl rfl (laNe (by decide)) ?_
      refine Ev.shift 53 (by decide) rfl (by decide) ?_
      refine NumSyn.sim hv.2 62 (by decide) rfl rfl n20 ?_
      exact Ev.reduceT (pops := [(53, .none), (44, .num dd.val), (26, .str m), (12, .none), (4, .str a)]) _ 22 g
        (by decide) rfl rfl (by decide) rfl rfl hg
    | ge =>
      refine Ev.shift 13 (by decide) rfl (by decide) ?_
      refine Ev.shift 28 (by decide) rfl (by decide) ?_
      refine NumSyn.sim hv.1 45 (by decide) rfl rfl (laNe (by decide)) ?_
      refine Ev.shift 54 (by decide) rfl (by decide) ?_
      refine NumSyn.sim hv.2 63 (by decide) rfl rfl n20 ?_
      exact Ev.reduceT (pops := [(54, .none), (45, .num dd.val), (28, .str m), (13, .none), (4, .str a)]) _ 21 g
        (by decide) rfl rfl (by decide) rfl rfl hg
    | eq =>
      refine Ev.shift 17 (by decide) rfl (by decide) ?_
      refine Ev.shift 36 (by decide) rfl (by decide) ?_
      refine NumSyn.sim hv.1 50 (by decide) rfl rfl (laNe (by decide)) ?_
      refine Ev.shift 60 (by decide) rfl (by decide) ?_
      refine NumSyn.sim hv.2 69 (by decide) rfl rfl n20 ?_
      exact Ev.reduceT (pops := [(60, .none), (50, .num dd.val), (36, .str m), (17, .none), (4, .str a)]) _ 17 g
        (by decide) rfl rfl (by decide) rfl rfl hg
  | dateRange a m d1 d2 y =>
    simp only [CondSyn.valid, Bool.and_eq_true] at hv
    refine Ev.cast (k := 1 + (1 + (1 + (d1.steps + (1 + (d2.steps + (1 + (y.steps + 1))))))))
      (by simp [CondSyn.steps]; omega) ?_
    simp only [CondSyn.toks, List.cons_append, List.append_assoc, List.nil_append]
    refine Ev.shift 4 hs h4 (by decide) ?_
    refine Ev.shift 17 (by decide) rfl (by decide) ?_
    refine Ev.shift 36 (by decide) rfl (by decide) ?_
    refine NumSyn.sim hv.1 50 (by decide) rfl rfl (laNe (by decide)) ?_
    refine Ev.shift 59 (by decide) rfl (by decide) ?_
    refine NumSyn.sim hv.2.1 68 (by decide) rfl rfl (laNe (by decide)) ?_
    refine Ev.shift 73 (by decide) rfl (by decide) ?_
    refine NumSyn.sim hv.2.2 74 (by decide) rfl rfl n20 ?_
    exact Ev.reduceT (pops := [(73, .none), (68, .num d2.val), (59, .none), (50, .num d1.val), (36, .str m),
      (17, .none), (4, .str a)]) _ 18 g (by decide) rfl rfl (by decide) rfl rfl hg

/-- Rounds spent on a policy. -/
def Expr.steps : Expr → Nat
  | .leaf _ => 2
  | .cond c => c.steps
  | .paren e => e.steps + 3
  | .or l r => l.steps + r.steps + 2
  | .and l r => l.steps + r.steps + 2

/-- Which expressions are read in which context: to the right of `or` no `or`, to the right of `and` only
atoms. -/
def Fits (s : Nat) (e : Expr) : Prop := (s = 19 ∨ s = 20 → e.isOr = false) ∧ (s = 20 → e.isAnd = false)

theorem bind_assoc' {α β γ : Type} (x : Res α) (f : α → Res β) (g : β → Res γ) :
    (x.bind f).bind g = x.bind fun a => (f a).bind g := by
  cases x <;> rfl

theorem look38 : ∀ n, n = 0 ∨ n = 9 ∨ n = 24 → yyLook 38 n = none := by
  rintro n (rfl | rfl | rfl) <;> rfl

theorem Expr.sim : ∀ (e : Expr), e.canon = true → e.valid = true → ∀ {s g : Nat}, PStart s g → Fits s e →
    ∀ {v : SVal} {st : List (Nat × SVal)} {d : Drv} {ts : List Tok}, Follow ts →
    (e.isOr = true → la ts ≠ 10) →
    Ev mk e.steps ⟨(s, v) :: st, d, e.toks ++ ts⟩
      (fun f => (e.eval mk d).bind fun x => yyRun mk f ⟨(g, .tree x.1) :: (s, v) :: st, x.2, ts⟩)
  | .leaf a, _, _, s, g, hst, _, v, st, d, ts, hf, _ => by
    obtain ⟨hs, h4, h23, hg⟩ := hst.facts
    refine Ev.cast (k := 1 + 1) rfl ?_
    refine Ev.shift 4 hs h4 (by decide) ?_
    exact Ev.reduce (pops := []) 6 g (by decide) (look4 _ hf) rfl (by decide) rfl
      (R := leafNode d a) (g := fun x => (SVal.tree x.1, x.2)) rfl hg
  | .cond c, _, hv, s, g, hst, _, v, st, d, ts, hf, _ => CondSyn.sim hv hst hf
  | .paren e, hc, hv, s, g, hst, _, v, st, d, ts, hf, _ => by
    obtain ⟨hs, h4, h23, hg⟩ := hst.facts
    refine Ev.cast (k := 1 + (e.steps + (1 + 1))) (by simp [Expr.steps]; omega) ?_
    simp only [Expr.toks, List.cons_append, List.append_assoc, List.nil_append]
    refine Ev.shift 5 hs h23 (by decide) ?_
    refine Ev.bind (Expr.sim e hc hv (s := 5) (g := 18) (Or.inr (Or.inl ⟨rfl, rfl⟩))
      ⟨(fun h => by rcases h with h | h <;> cases h), (fun h => by cases h)⟩ (Or.inr (Or.inr (Or.inr rfl)))
      (fun _ => laNe (by decide))) ?_
    intro x
    refine Ev.shift 37 (by decide) rfl (by decide) ?_
    exact Ev.reduceThen (k := 0) (pops := [(18, .tree x.1), (5, .none)]) 14 g (by decide) rfl rfl (by decide) rfl rfl hg
      (Ev.refl _)
  | .or l r, hc, hv, s, g, hst, hfit, v, st, d, ts, hf, hor => by
    obtain ⟨hs, h4, h23, hg⟩ := hst.facts
    simp only [Expr.canon, Expr.valid, Bool.and_eq_true, Bool.not_eq_true'] at hc hv
    have hsg : (s = 1 ∧ g = 6) ∨ (s = 5 ∧ g = 18) := by
      rcases hst with h | h | h | h
      · exact Or.inl h
      · exact Or.inr h
      · exact absurd (hfit.1 (Or.inl h.1)) (by simp [Expr.isOr])
      · exact absurd (hfit.1 (Or.inr h.1)) (by simp [Expr.isOr])
    refine Ev.cast (k := l.steps + (1 + (r.steps + 1))) (by simp [Expr.steps]; omega) ?_
    simp only [Expr.toks, List.cons_append, List.append_assoc]
    have hlf : Fits s l := by
      refine ⟨fun h => ?_, fun h => ?_⟩ <;> exfalso <;> rcases hsg with ⟨h', _⟩ | ⟨h', _⟩ <;> omega
    simp only [Expr.eval]
    have hb := Ev.bind (mk := mk) (k' := 1 + (r.steps + 1))
      (F := fun x f => (r.eval mk x.2).bind fun y =>
        yyRun mk f ⟨(g, .tree (kof2 1 x.1 y.1)) :: (s, v) :: st, y.2, ts⟩)
      (Expr.sim l hc.1.1 hv.1 hst hlf (v := v) (st := st) (d := d) (ts := .or :: (r.toks ++ ts))
        (Or.inr (Or.inl rfl)) (fun _ => laNe (by decide))) ?_
    · refine fun f => (hb f).trans ?_
      show Res.bind _ _ = Res.bind (Res.bind _ _) _
      rw [bind_assoc']
      congr 1
      funext x
      show Res.bind _ _ = Res.bind (Res.bind _ _) _
      rw [bind_assoc']
      rfl
    · intro x
      have hgs : g ≠ 10 ∧ yyLook g 9 = some (Int.ofNat 19) := by
        rcases hsg with ⟨_, rfl⟩ | ⟨_, rfl⟩ <;> exact ⟨by decide, rfl⟩
      refine Ev.shift 19 hgs.1 hgs.2 (by decide) ?_
      refine Ev.bind (Expr.sim r hc.1.2 hv.2 (s := 19) (g := 38) (Or.inr (Or.inr (Or.inl ⟨rfl, rfl⟩)))
        ⟨fun _ => hc.2, (fun h => by cases h)⟩ hf (fun h => by rw [hc.2] at h; cases h)) ?_
      intro y
      have hla : la ts = 0 ∨ la ts = 9 ∨ la ts = 24 := by
        have := hor rfl
        rcases hf with h | h | h | h
        · exact Or.inl h
        · exact Or.inr (Or.inl h)
        · exact absurd h this
        · exact Or.inr (Or.inr h)
      exact Ev.reduceThen (k := 0) (pops := [(19, .none), (g, .tree x.1)]) 7 g (by decide) (look38 _ hla) rfl (by decide)
        rfl rfl hg (Ev.refl _)
  | .and l r, hc, hv, s, g, hst, hfit, v, st, d, ts, hf, hor => by
    obtain ⟨hs, h4, h23, hg⟩ := hst.facts
    simp only [Expr.canon, Expr.valid, Bool.and_eq_true, Bool.not_eq_true'] at hc hv
    have hsg : (s = 1 ∧ g = 6) ∨ (s = 5 ∧ g = 18) ∨ (s = 19 ∧ g = 38) := by
      rcases hst with h | h | h | h
      · exact Or.inl h
      · exact Or.inr (Or.inl h)
      · exact Or.inr (Or.inr h)
      · exact absurd (hfit.2 h.1) (by simp [Expr.isAnd])
    refine Ev.cast (k := l.steps + (1 + (r.steps + 1))) (by simp [Expr.steps]; omega) ?_
    simp only [Expr.toks, List.cons_append, List.append_assoc]
    have hlf : Fits s l := by
      refine ⟨fun _ => hc.1.1.2, fun h => ?_⟩
      exfalso; rcases hsg with ⟨h', _⟩ | ⟨h', _⟩ | ⟨h', _⟩ <;> omega
    simp only [Expr.eval]
    have hb := Ev.bind (mk := mk) (k' := 1 + (r.steps + 1))
      (F := fun x f => (r.eval mk x.2).bind fun y =>
        yyRun mk f ⟨(g, .tree (kof2 2 x.1 y.1)) :: (s, v) :: st, y.2, ts⟩)
      (Expr.sim l hc.1.1.1.1 hv.1 hst hlf (v := v) (st := st) (d := d) (ts := .and :: (r.toks ++ ts))
        (Or.inr (Or.inr (Or.inl rfl))) (fun h => by rw [hc.1.1.2] at h; cases h)) ?_
    · refine fun f => (hb f).trans ?_
      show Res.bind _ _ = Res.bind (Res.bind _ _) _
      rw [bind_assoc']
      congr 1
      funext x
      show Res.bind _ _ = Res.bind (Res.bind _ _) _
      rw [bind_assoc']
      rfl
    · intro x
      have hgs : g ≠ 10 ∧ yyLook g 10 = some (Int.ofNat 20) := by
        rcases hsg with ⟨_, rfl⟩ | ⟨_, rfl⟩ | ⟨_, rfl⟩ <;> exact ⟨by decide, rfl⟩
      refine Ev.shift 20 hgs.1 hgs.2 (by decide) ?_
      refine Ev.bind (Expr.sim r hc.1.1.1.2 hv.2 (s := 20) (g := 39) (Or.inr (Or.inr (Or.inr ⟨rfl, rfl⟩)))
        ⟨fun _ => hc.1.2, fun _ => hc.2⟩ hf (fun h => by rw [hc.1.2] at h; cases h)) ?_
      intro y
      exact Ev.reduceThen (k := 0) (pops := [(20, .none), (g, .tree x.1)]) 8 g (by decide) rfl rfl (by decide)
        rfl rfl hg (Ev.refl _)

/-! ### Attribute lists -/

/-- States in which an attribute list may start, with the state after it. -/
def AStart (s g : Nat) : Prop := (s = 2 ∧ g = 9) ∨ (s = 8 ∧ g = 22) ∨ (s = 23 ∧ g = 42)

theorem AStart.facts {s g : Nat} (h : AStart s g) : s ≠ 10 ∧ yyLook s 4 = some (Int.ofNat 7) ∧
    yyLook s 30 = some (Int.ofNat 8) ∧ yyGoto s 35 = g ∧ g ≠ 10 ∧ yyLook g 30 = some (Int.ofNat 23) := by
  rcases h with ⟨rfl, rfl⟩ | ⟨rfl, rfl⟩ | ⟨rfl, rfl⟩ <;>
    exact ⟨by decide, rfl, rfl, rfl, by decide, rfl⟩

/-- Rounds spent on an item. -/
def Item.steps : Item → Nat
  | .leaf _ => 2
  | .num _ n => n.steps + 3
  | .date _ _ d y => d.steps + y.steps + 5

theorem look7 : ∀ n, n = 0 ∨ n = 30 → yyLook 7 n = none := by
  rintro n (rfl | rfl) <;> rfl

theorem Item.sim {i : Item} (hv : i.valid = true) {s g : Nat} (hst : AStart s g) {v : SVal}
    {st : List (Nat × SVal)} {d : Drv} {ts : List Tok} (hf : la ts = 0 ∨ la ts = 30) :
    Ev mk i.steps ⟨(s, v) :: st, d, i.toks ++ ts⟩
      (fun f => (i.eval mk d).bind fun x => yyRun mk f ⟨(g, .attrs x.1) :: (s, v) :: st, x.2, ts⟩) := by
  obtain ⟨hs, h4, h30, hg, _, _⟩ := hst.facts
  have n20 : la ts ≠ 20 := by rcases hf with h | h <;> omega
  cases i with
  | leaf a =>
    refine Ev.cast (k := 1 + 1) rfl ?_
    refine Ev.shift 7 hs h4 (by decide) ?_
    exact Ev.reduce (pops := []) (R := leafAttr d a) (g := fun x => (SVal.attrs x.1, x.2)) 23 g (by decide)
      (look7 _ hf) rfl (by decide) rfl rfl hg
  | num a n =>
    refine Ev.cast (k := 1 + (1 + (n.steps + (1 + 0)))) (by simp [Item.steps]; omega) ?_
    refine Ev.shift 7 hs h4 (by decide) ?_
    refine Ev.shift 21 (by decide) rfl (by decide) ?_
    refine NumSyn.sim hv 41 (by decide) rfl rfl n20 ?_
    exact Ev.reduceThen (pops := [(21, .none), (7, .str a)]) 27 g (by decide) rfl rfl (by decide) rfl rfl hg
      (Ev.refl _)
  | date a m dd y =>
    simp only [Item.valid, Bool.and_eq_true] at hv
    refine Ev.cast (k := 1 + (1 + (1 + (dd.steps + (1 + (y.steps + (1 + 0)))))))
      (by simp [Item.steps]; omega) ?_
    simp only [Item.toks, List.cons_append, List.append_assoc, List.nil_append]
    refine Ev.shift 7 hs h4 (by decide) ?_
    refine Ev.shift 21 (by decide) rfl (by decide) ?_
    refine Ev.shift 40 (by decide) rfl (by decide) ?_
    refine NumSyn.sim hv.1 51 (by decide) rfl rfl (laNe (by decide)) ?_
    refine Ev.shift 61 (by decide) rfl (by decide) ?_
    refine NumSyn.sim hv.2 70 (by decide) rfl rfl n20 ?_
    exact Ev.reduceThen (pops := [(61, .none), (51, .num dd.val), (40, .str m), (21, .none), (7, .str a)]) 28 g
      (by decide) rfl rfl (by decide) rfl rfl hg (Ev.refl _)

/-- Rounds spent on an attribute list. -/
def AExpr.steps : AExpr → Nat
  | .item i => i.steps
  | .pre a => a.steps + 2
  | .post a => a.steps + 2
  | .cat a b => a.steps + b.steps + 2

theorem look0 : yyLook 22 0 = none ∧ yyLook 23 0 = none ∧ yyLook 42 0 = none := ⟨rfl, rfl, rfl⟩

theorem AExpr.sim : ∀ (a : AExpr), a.canon = true → a.valid = true → ∀ {s g : Nat}, AStart s g →
    ∀ {v : SVal} {st : List (Nat × SVal)} {d : Drv} {ts : List Tok}, la ts = 0 →
    Ev mk a.steps ⟨(s, v) :: st, d, a.toks ++ ts⟩
      (fun f => (a.eval mk d).bind fun x => yyRun mk f ⟨(g, .attrs x.1) :: (s, v) :: st, x.2, ts⟩)
  | .item i, _, hv, s, g, hst, v, st, d, ts, hf => Item.sim hv hst (Or.inl hf)
  | .pre a, hc, hv, s, g, hst, v, st, d, ts, hf => by
    obtain ⟨hs, h4, h30, hg, _, _⟩ := hst.facts
    refine Ev.cast (k := 1 + (a.steps + (1 + 0))) (by simp [AExpr.steps]; omega) ?_
    simp only [AExpr.toks, List.cons_append]
    refine Ev.shift 8 hs h30 (by decide) ?_
    have hb := Ev.bind (mk := mk) (k' := 1 + 0)
      (F := fun x f => yyRun mk f ⟨(g, .attrs (concatAttr x.1 none)) :: (s, v) :: st, x.2, ts⟩)
      (AExpr.sim a hc hv (s := 8) (g := 22) (Or.inr (Or.inl ⟨rfl, rfl⟩))
        (v := .none) (st := (s, v) :: st) (d := d) hf) ?_
    · refine fun f => (hb f).trans ?_
      show Res.bind _ _ = Res.bind (Res.bind _ _) _
      rw [bind_assoc']; rfl
    · intro x
      exact Ev.reduceThen (pops := [(8, .none)]) 24 g (by decide) (by rw [hf]; exact look0.1) rfl (by decide)
        rfl rfl hg (Ev.refl _)
  | .post (.item i), _, hv, s, g, hst, v, st, d, ts, hf => by
    obtain ⟨hs, h4, h30, hg, h10, h30'⟩ := hst.facts
    refine Ev.cast (k := i.steps + (1 + (1 + 0))) (by simp [AExpr.steps]) ?_
    simp only [AExpr.toks, List.cons_append, List.append_assoc, List.nil_append]
    have hb := Ev.bind (mk := mk) (k' := 1 + (1 + 0))
      (F := fun x f => yyRun mk f ⟨(g, .attrs (concatAttr x.1 none)) :: (s, v) :: st, x.2, ts⟩)
      (Item.sim (i := i) hv hst (v := v) (st := st) (d := d) (ts := .chr 124 :: ts) (Or.inr rfl)) ?_
    · refine fun f => (hb f).trans ?_
      show Res.bind _ _ = Res.bind (Res.bind _ _) _
      rw [bind_assoc']; rfl
    · intro x
      refine Ev.shift 23 h10 h30' (by decide) ?_
      exact Ev.reduceThen (pops := [(g, .attrs x.1)]) 25 g (by decide) (by rw [hf]; exact look0.2.1) rfl
        (by decide) rfl rfl hg (Ev.refl _)
  | .cat (.item i) b, hc, hv, s, g, hst, v, st, d, ts, hf => by
    obtain ⟨hs, h4, h30, hg, h10, h30'⟩ := hst.facts
    simp only [AExpr.valid, AExpr.canon, AExpr.isItem, Bool.true_and, Bool.and_eq_true] at hv hc
    refine Ev.cast (k := i.steps + (1 + (b.steps + (1 + 0)))) (by simp [AExpr.steps]; omega) ?_
    simp only [AExpr.toks, List.cons_append, List.append_assoc, List.nil_append]
    have hb := Ev.bind (mk := mk) (k' := 1 + (b.steps + (1 + 0)))
      (F := fun x f => (b.eval mk x.2).bind fun y =>
        yyRun mk f ⟨(g, .attrs (concatAttr x.1 y.1)) :: (s, v) :: st, y.2, ts⟩)
      (Item.sim (i := i) hv.1 hst (v := v) (st := st) (d := d) (ts := .chr 124 :: (b.toks ++ ts)) (Or.inr rfl)) ?_
    · refine fun f => (hb f).trans ?_
      show Res.bind _ _ = Res.bind (Res.bind _ _) _
      rw [bind_assoc']
      congr 1
      funext x
      show Res.bind _ _ = Res.bind (Res.bind _ _) _
      rw [bind_assoc']; rfl
    · intro x
      refine Ev.shift 23 h10 h30' (by decide) ?_
      refine Ev.bind (AExpr.sim b hc hv.2 (s := 23) (g := 42) (Or.inr (Or.inr ⟨rfl, rfl⟩)) hf) ?_
      intro y
      exact Ev.reduceThen (pops := [(23, .none), (g, .attrs x.1)]) 26 g (by decide) (by rw [hf]; exact look0.2.2)
        rfl (by decide) rfl rfl hg (Ev.refl _)
  | .post (.pre _), hc, _, _, _, _, _, _, _, _, _ => by cases hc
  | .post (.post _), hc, _, _, _, _, _, _, _, _, _ => by cases hc
  | .post (.cat _ _), hc, _, _, _, _, _, _, _, _, _ => by cases hc
  | .cat (.pre _) _, hc, _, _, _, _, _, _, _, _, _ => by cases hc
  | .cat (.post _) _, hc, _, _, _, _, _, _, _, _, _ => by cases hc
  | .cat (.cat _ _) _, hc, _, _, _, _, _, _, _, _, _ => by cases hc

/-! ### Whole inputs -/

theorem NumSyn.steps_le (n : NumSyn) : n.steps ≤ 2 * n.toks.length := by cases n <;> simp [steps, toks]
theorem NumSyn.toks_pos (n : NumSyn) : 1 ≤ n.toks.length := by cases n <;> simp [toks]

theorem CondSyn.steps_le (c : CondSyn) : c.steps + 1 ≤ 3 * c.toks.length := by
  cases c with
  | cmp op s n => have := n.steps_le; simp [steps, toks]; omega
  | rangeO s lo hi => have := lo.steps_le; have := hi.steps_le; simp [steps, toks]; omega
  | rangeC s lo hi => have := lo.steps_le; have := hi.steps_le; simp [steps, toks]; omega
  | date op s m d y => have := d.steps_le; have := y.steps_le; simp [steps, toks]; omega
  | dateRange s m d1 d2 y =>
    have := d1.steps_le; have := d2.steps_le; have := y.steps_le; simp [steps, toks]; omega

theorem Expr.steps_le : ∀ e : Expr, e.steps + 1 ≤ 3 * e.toks.length
  | .leaf _ => by simp [steps, toks]
  | .cond c => c.steps_le
  | .paren e => by have := steps_le e; simp [steps, toks]; omega
  | .or l r => by have := steps_le l; have := steps_le r; simp [steps, toks]; omega
  | .and l r => by have := steps_le l; have := steps_le r; simp [steps, toks]; omega

theorem Item.steps_le (c : Item) : c.steps + 1 ≤ 3 * c.toks.length := by
  cases c with
  | leaf s => simp [steps, toks]
  | num s n => have := n.steps_le; simp [steps, toks]; omega
  | date s m d y => have := d.steps_le; have := y.steps_le; simp [steps, toks]; omega

theorem AExpr.steps_le : ∀ e : AExpr, e.steps + 1 ≤ 3 * e.toks.length
  | .item i => i.steps_le
  | .pre e => by have := steps_le e; simp [steps, toks]; omega
  | .post e => by have := steps_le e; simp [steps, toks]; omega
  | .cat l r => by have := steps_le l; have := steps_le r; simp [steps, toks]; omega

/-- At the end of the input in state 3 the parser accepts. -/
theorem run_accept {v v0 : SVal} {d : Drv} {ts : List Tok} (h : la ts = 0) (f : Nat) :
    yyRun mk (2 + f) ⟨[(3, v), (0, v0)], d, ts⟩ = .ok (true, d) := by
  rw [Nat.add_comm 2]
  have h3 : yyLook 3 0 = some 10 := rfl
  simp [yyRun, yyStep, h, h3]

/-- The parser on the tokens of a policy. -/
theorem run_policy {e : Expr} (hc : e.canon = true) (hv : e.valid = true) (d : Drv) {ts : List Tok}
    (h : la ts = 0) {fuel : Nat} (hf : e.steps + 4 ≤ fuel) :
    yyRun mk fuel ⟨[(0, .none)], d, .startPolicy :: (e.toks ++ ts)⟩ =
      (e.eval mk d).bind fun x => .ok (true, setPolicy x.2 x.1) := by
  have key : Ev mk (1 + (e.steps + (1 + 2))) ⟨[(0, .none)], d, .startPolicy :: (e.toks ++ ts)⟩
      (fun _ => (e.eval mk d).bind fun x => .ok (true, setPolicy x.2 x.1)) := by
    refine Ev.shift 1 (by decide) rfl (by decide) ?_
    refine Ev.bind (Expr.sim e hc hv (s := 1) (g := 6) (Or.inl ⟨rfl, rfl⟩)
      ⟨(fun h => by rcases h with h | h <;> cases h), (fun h => by cases h)⟩ (Or.inl h)
      (fun _ => by rw [h]; decide)) ?_
    intro x
    have hl : yyLook 6 (la ts) = none := by rw [h]; rfl
    exact Ev.reduceThen (pops := [(1, .none)]) 2 3 (by decide) hl rfl (by decide) rfl rfl rfl (run_accept h)
  have := key (fuel - (1 + (e.steps + (1 + 2))))
  rwa [Nat.add_sub_cancel' (by omega)] at this

/-- The parser on the tokens of an attribute list. -/
theorem run_attrs {e : AExpr} (hc : e.canon = true) (hv : e.valid = true) (d : Drv) {ts : List Tok}
    (h : la ts = 0) {fuel : Nat} (hf : e.steps + 4 ≤ fuel) :
    yyRun mk fuel ⟨[(0, .none)], d, .startAttr :: (e.toks ++ ts)⟩ =
      (e.eval mk d).bind fun x => (setAttrlist x.2 x.1).bind fun d' => .ok (true, d') := by
  have key : Ev mk (1 + (e.steps + (1 + 2))) ⟨[(0, .none)], d, .startAttr :: (e.toks ++ ts)⟩
      (fun _ => (e.eval mk d).bind fun x => (setAttrlist x.2 x.1).bind fun d' => .ok (true, d')) := by
    refine Ev.shift 2 (by decide) rfl (by decide) ?_
    refine Ev.bind (AExpr.sim e hc hv (s := 2) (g := 9) (Or.inl ⟨rfl, rfl⟩) h) ?_
    intro x
    have hl : yyLook 9 (la ts) = none := by rw [h]; rfl
    refine Ev.bind (Ev.reduce (pops := [(2, .none)]) (R := setAttrlist x.2 x.1) (g := fun d' => (SVal.none, d')) 3 3
      (by decide) hl rfl (by decide) rfl rfl rfl) ?_
    intro d'
    exact run_accept h
  have := key (fuel - (1 + (e.steps + (1 + 2))))
  rwa [Nat.add_sub_cancel' (by omega)] at this

end Abe
