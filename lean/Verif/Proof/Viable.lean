import Verif.Spec.Locations
import Verif.Proof.ParserInv
/-!
# What the parser has read can be continued

For every state one item of its kernel is chosen. The rest of its right-hand side is completed with fixed tokens, the item is reduced,
and so on until the start symbol has been read.
-/
set_option linter.unusedSimpArgs false
set_option linter.unusedSectionVars false
set_option autoImplicit false
namespace Abe

/-- The tokens belong to the symbol. -/
def Syn (x : Nat) (seg : List Tok) : Prop :=
  match x with
  | 4 => ∃ s, seg = [.leaf s]
  | 5 => ∃ n, seg = [.uint n]
  | 32 => (∃ e : Expr, e.valid = true ∧ seg = .startPolicy :: e.toks) ∨ ∃ a : AExpr, a.valid = true ∧ a.canon = true ∧ seg = .startAttr :: a.toks
  | 33 => ∃ n : NumSyn, n.valid = true ∧ seg = n.toks
  | 34 => ∃ e : Expr, e.valid = true ∧ seg = e.toks
  | 35 => ∃ a : AExpr, a.valid = true ∧ a.canon = true ∧ seg = a.toks
  | x => ∃ t, tokOf x = some t ∧ seg = [t]

theorem Syn.of_symOk {x : Nat} {v : SVal} {seg : List Tok} (h : SymOk x v seg) (h0 : x ≠ 0) : Syn x seg := by
  cases h with
  | leaf h => exact ⟨_, rfl⟩
  | uint h => exact ⟨_, rfl⟩
  | fixed h =>
    rename_i t
    unfold Syn
    split
    all_goals first
      | (simp [tokOf] at h; done)
      | exact ⟨t, h, rfl⟩
  | eofNone => exact absurd rfl h0
  | eofTok h => exact absurd rfl h0
  | num h h' => exact ⟨_, h, rfl⟩
  | pol h => exact ⟨_, h, rfl⟩
  | item h => exact ⟨.item _, h, rfl, rfl⟩
  | list h h' => exact ⟨_, h, h', rfl⟩
  | startP h => exact Or.inl ⟨_, h, rfl⟩
  | startA h h' => exact Or.inr ⟨_, h, h', rfl⟩

/-- The sequences, last one first, belong to the symbols. -/
def SynL : List (List Tok) → List Nat → Prop
  | [], [] => True
  | g :: P, x :: xs => Syn x g ∧ SynL P xs
  | _, _ => False

/-- Tokens of sequences, the last one first. -/
def flatRev : List (List Tok) → List Tok
  | [] => []
  | g :: P => flatRev P ++ g

theorem flatRev_append : ∀ P Q, flatRev (P ++ Q) = flatRev Q ++ flatRev P
  | [], Q => by simp [flatRev]
  | g :: P, Q => by simp [flatRev, flatRev_append P Q]

theorem synL_nil {P : List (List Tok)} : SynL P [] ↔ P = [] := by cases P <;> simp [SynL]

theorem synL_cons {P : List (List Tok)} {x : Nat} {xs : List Nat} :
    SynL P (x :: xs) ↔ ∃ g P', P = g :: P' ∧ Syn x g ∧ SynL P' xs := by
  cases P <;> simp [SynL]

theorem SynL.append : ∀ {P Q : List (List Tok)} {xs ys : List Nat}, SynL P xs → SynL Q ys → SynL (P ++ Q) (xs ++ ys)
  | [], _, [], _, _, h => h
  | [], _, _ :: _, _, h, _ => h.elim
  | _ :: _, _, [], _, h, _ => h.elim
  | _ :: _, _, _ :: _, _, h, h' => ⟨h.1, SynL.append h.2 h'⟩

/-- Right-hand sides derive what their left-hand side stands for. -/
theorem rule_syn {r : Nat} (h2 : 2 ≤ r) (h28 : r ≤ 28) {P : List (List Tok)} (hs : SynL P (rhsRev r))
    (h4 : r = 4 → ∀ n b, flatRev P = [.uint n, .chr 35, .uint b] → checkValidBit n b = true)
    (hitem : r = 25 ∨ r = 26 → ∃ g ∈ P.getLast?, IsItem g) :
    Syn (yyR1.getD r 0).toNat (flatRev P) := by
  have fx : ∀ {x : Nat} {t : Tok} {seg : List Tok}, tokOf x = some t → Syn x seg → seg = [t] := by
    intro x t seg ht h
    unfold Syn at h
    split at h
    all_goals first
      | (simp [tokOf] at ht; done)
      | (obtain ⟨t', h', e⟩ := h; rw [ht] at h'; cases h'; exact e)
  interval_cases r <;> simp only [rhsRev, synL_cons, synL_nil] at hs
  · obtain ⟨g1, _, rfl, ⟨a1, n1, e1⟩, g2, _, rfl, s2, rfl⟩ := hs
    have e2 := fx rfl s2
    exact Or.inl ⟨a1, n1, by simp [flatRev, e1, e2]⟩
  · obtain ⟨g1, _, rfl, ⟨a1, n1, c1, e1⟩, g2, _, rfl, s2, rfl⟩ := hs
    have e2 := fx rfl s2
    exact Or.inr ⟨a1, n1, c1, by simp [flatRev, e1, e2]⟩
  · obtain ⟨g1, _, rfl, ⟨b, e1⟩, g2, _, rfl, s2, g3, _, rfl, ⟨n, e3⟩, rfl⟩ := hs
    have e2 := fx rfl s2
    have e : flatRev [g1, g2, g3] = [.uint n, .chr 35, .uint b] := by simp [flatRev, e1, e2, e3]
    exact ⟨.exp n b, h4 rfl n b e, e⟩
  · obtain ⟨g1, _, rfl, ⟨n, e1⟩, rfl⟩ := hs
    exact ⟨.flex n, rfl, by simp [flatRev, e1, NumSyn.toks]⟩
  · obtain ⟨g1, _, rfl, ⟨n, e1⟩, rfl⟩ := hs
    exact ⟨.leaf n, rfl, by simp [flatRev, e1, Expr.toks]⟩
  · obtain ⟨g1, _, rfl, ⟨a1, n1, e1⟩, g2, _, rfl, s2, g3, _, rfl, ⟨a3, n3, e3⟩, rfl⟩ := hs
    have e2 := fx rfl s2
    exact ⟨.or a3 a1, by simp [Expr.valid, n1, n3], by simp [flatRev, e1, e2, e3, Expr.toks]⟩
  · obtain ⟨g1, _, rfl, ⟨a1, n1, e1⟩, g2, _, rfl, s2, g3, _, rfl, ⟨a3, n3, e3⟩, rfl⟩ := hs
    have e2 := fx rfl s2
    exact ⟨.and a3 a1, by simp [Expr.valid, n1, n3], by simp [flatRev, e1, e2, e3, Expr.toks]⟩
  · obtain ⟨g1, _, rfl, ⟨a1, n1, e1⟩, g2, _, rfl, s2, g3, _, rfl, ⟨a3, e3⟩, rfl⟩ := hs
    have e2 := fx rfl s2
    exact ⟨.cond (.cmp .lt a3 a1), n1, by simp [flatRev, e1, e2, e3, Expr.toks, CondSyn.toks, CmpOp.tok]⟩
  · obtain ⟨g1, _, rfl, ⟨a1, n1, e1⟩, g2, _, rfl, s2, g3, _, rfl, ⟨a3, e3⟩, rfl⟩ := hs
    have e2 := fx rfl s2
    exact ⟨.cond (.cmp .gt a3 a1), n1, by simp [flatRev, e1, e2, e3, Expr.toks, CondSyn.toks, CmpOp.tok]⟩
  · obtain ⟨g1, _, rfl, ⟨a1, n1, e1⟩, g2, _, rfl, s2, g3, _, rfl, ⟨a3, e3⟩, rfl⟩ := hs
    have e2 := fx rfl s2
    exact ⟨.cond (.cmp .le a3 a1), n1, by simp [flatRev, e1, e2, e3, Expr.toks, CondSyn.toks, CmpOp.tok]⟩
  · obtain ⟨g1, _, rfl, ⟨a1, n1, e1⟩, g2, _, rfl, s2, g3, _, rfl, ⟨a3, e3⟩, rfl⟩ := hs
    have e2 := fx rfl s2
    exact ⟨.cond (.cmp .ge a3 a1), n1, by simp [flatRev, e1, e2, e3, Expr.toks, CondSyn.toks, CmpOp.tok]⟩
  · obtain ⟨g1, _, rfl, ⟨a1, n1, e1⟩, g2, _, rfl, s2, g3, _, rfl, ⟨a3, e3⟩, rfl⟩ := hs
    have e2 := fx rfl s2
    exact ⟨.cond (.cmp .eq a3 a1), n1, by simp [flatRev, e1, e2, e3, Expr.toks, CondSyn.toks, CmpOp.tok]⟩
  · obtain ⟨g1, _, rfl, s1, g2, _, rfl, ⟨a2, n2, e2⟩, g3, _, rfl, s3, rfl⟩ := hs
    have e1 := fx rfl s1
    have e3 := fx rfl s3
    exact ⟨.paren a2, n2, by simp [flatRev, e1, e2, e3, Expr.toks]⟩
  · obtain ⟨g1, _, rfl, s1, g2, _, rfl, ⟨a2, n2, e2⟩, g3, _, rfl, s3, g4, _, rfl, ⟨a4, n4, e4⟩, g5, _, rfl, s5, g6, _, rfl, s6, g7, _, rfl, ⟨a7, e7⟩, rfl⟩ := hs
    have e1 := fx rfl s1
    have e3 := fx rfl s3
    have e5 := fx rfl s5
    have e6 := fx rfl s6
    exact ⟨.cond (.rangeO a7 a4 a2), by simp [Expr.valid, CondSyn.valid, n2, n4], by simp [flatRev, e1, e2, e3, e4, e5, e6, e7, Expr.toks, CondSyn.toks]⟩
  · obtain ⟨g1, _, rfl, s1, g2, _, rfl, ⟨a2, n2, e2⟩, g3, _, rfl, s3, g4, _, rfl, ⟨a4, n4, e4⟩, g5, _, rfl, s5, g6, _, rfl, s6, g7, _, rfl, ⟨a7, e7⟩, rfl⟩ := hs
    have e1 := fx rfl s1
    have e3 := fx rfl s3
    have e5 := fx rfl s5
    have e6 := fx rfl s6
    exact ⟨.cond (.rangeC a7 a4 a2), by simp [Expr.valid, CondSyn.valid, n2, n4], by simp [flatRev, e1, e2, e3, e4, e5, e6, e7, Expr.toks, CondSyn.toks]⟩
  · obtain ⟨g1, _, rfl, ⟨a1, n1, e1⟩, g2, _, rfl, s2, g3, _, rfl, ⟨a3, n3, e3⟩, g4, _, rfl, ⟨a4, e4⟩, g5, _, rfl, s5, g6, _, rfl, ⟨a6, e6⟩, rfl⟩ := hs
    have e2 := fx rfl s2
    have e5 := fx rfl s5
    exact ⟨.cond (.date .eq a6 a4 a3 a1), by simp [Expr.valid, CondSyn.valid, n1, n3], by simp [flatRev, e1, e2, e3, e4, e5, e6, Expr.toks, CondSyn.toks, CmpOp.dateTok, CmpOp.tok]⟩
  · obtain ⟨g1, _, rfl, ⟨a1, n1, e1⟩, g2, _, rfl, s2, g3, _, rfl, ⟨a3, n3, e3⟩, g4, _, rfl, s4, g5, _, rfl, ⟨a5, n5, e5⟩, g6, _, rfl, ⟨a6, e6⟩, g7, _, rfl, s7, g8, _, rfl, ⟨a8, e8⟩, rfl⟩ := hs
    have e2 := fx rfl s2
    have e4 := fx rfl s4
    have e7 := fx rfl s7
    exact ⟨.cond (.dateRange a8 a6 a5 a3 a1), by simp [Expr.valid, CondSyn.valid, n1, n3, n5], by simp [flatRev, e1, e2, e3, e4, e5, e6, e7, e8, Expr.toks, CondSyn.toks]⟩
  · obtain ⟨g1, _, rfl, ⟨a1, n1, e1⟩, g2, _, rfl, s2, g3, _, rfl, ⟨a3, n3, e3⟩, g4, _, rfl, ⟨a4, e4⟩, g5, _, rfl, s5, g6, _, rfl, ⟨a6, e6⟩, rfl⟩ := hs
    have e2 := fx rfl s2
    have e5 := fx rfl s5
    exact ⟨.cond (.date .gt a6 a4 a3 a1), by simp [Expr.valid, CondSyn.valid, n1, n3], by simp [flatRev, e1, e2, e3, e4, e5, e6, Expr.toks, CondSyn.toks, CmpOp.dateTok, CmpOp.tok]⟩
  · obtain ⟨g1, _, rfl, ⟨a1, n1, e1⟩, g2, _, rfl, s2, g3, _, rfl, ⟨a3, n3, e3⟩, g4, _, rfl, ⟨a4, e4⟩, g5, _, rfl, s5, g6, _, rfl, ⟨a6, e6⟩, rfl⟩ := hs
    have e2 := fx rfl s2
    have e5 := fx rfl s5
    exact ⟨.cond (.date .lt a6 a4 a3 a1), by simp [Expr.valid, CondSyn.valid, n1, n3], by simp [flatRev, e1, e2, e3, e4, e5, e6, Expr.toks, CondSyn.toks, CmpOp.dateTok, CmpOp.tok]⟩
  · obtain ⟨g1, _, rfl, ⟨a1, n1, e1⟩, g2, _, rfl, s2, g3, _, rfl, ⟨a3, n3, e3⟩, g4, _, rfl, ⟨a4, e4⟩, g5, _, rfl, s5, g6, _, rfl, ⟨a6, e6⟩, rfl⟩ := hs
    have e2 := fx rfl s2
    have e5 := fx rfl s5
    exact ⟨.cond (.date .ge a6 a4 a3 a1), by simp [Expr.valid, CondSyn.valid, n1, n3], by simp [flatRev, e1, e2, e3, e4, e5, e6, Expr.toks, CondSyn.toks, CmpOp.dateTok, CmpOp.tok]⟩
  · obtain ⟨g1, _, rfl, ⟨a1, n1, e1⟩, g2, _, rfl, s2, g3, _, rfl, ⟨a3, n3, e3⟩, g4, _, rfl, ⟨a4, e4⟩, g5, _, rfl, s5, g6, _, rfl, ⟨a6, e6⟩, rfl⟩ := hs
    have e2 := fx rfl s2
    have e5 := fx rfl s5
    exact ⟨.cond (.date .le a6 a4 a3 a1), by simp [Expr.valid, CondSyn.valid, n1, n3], by simp [flatRev, e1, e2, e3, e4, e5, e6, Expr.toks, CondSyn.toks, CmpOp.dateTok, CmpOp.tok]⟩
  · obtain ⟨g1, _, rfl, ⟨n, e1⟩, rfl⟩ := hs
    exact ⟨.item (.leaf n), rfl, rfl, by simp [flatRev, e1, AExpr.toks, Item.toks]⟩
  · obtain ⟨g1, _, rfl, ⟨a1, n1, c1, e1⟩, g2, _, rfl, s2, rfl⟩ := hs
    have e2 := fx rfl s2
    exact ⟨.pre a1, n1, c1, by simp [flatRev, e1, e2, AExpr.toks]⟩
  · obtain ⟨g1, _, rfl, s1, g2, _, rfl, _, rfl⟩ := hs
    have e1 := fx rfl s1
    obtain ⟨g, hg, i, n2, e2⟩ := hitem (Or.inl rfl)
    simp at hg
    subst hg
    exact ⟨.post (.item i), n2, rfl, by simp [flatRev, e1, e2, AExpr.toks]⟩
  · obtain ⟨g1, _, rfl, ⟨a1, n1, c1, e1⟩, g2, _, rfl, s2, g3, _, rfl, _, rfl⟩ := hs
    have e2 := fx rfl s2
    obtain ⟨g, hg, i, n3, e3⟩ := hitem (Or.inr rfl)
    simp at hg
    subst hg
    exact ⟨.cat (.item i) a1, by simp [AExpr.valid, n1, n3], by simp [AExpr.canon, AExpr.isItem, c1], by simp [flatRev, e1, e2, e3, AExpr.toks]⟩
  · obtain ⟨g1, _, rfl, ⟨a1, n1, e1⟩, g2, _, rfl, s2, g3, _, rfl, ⟨a3, e3⟩, rfl⟩ := hs
    have e2 := fx rfl s2
    exact ⟨.item (.num a3 a1), n1, rfl, by simp [flatRev, e1, e2, e3, AExpr.toks, Item.toks]⟩
  · obtain ⟨g1, _, rfl, ⟨a1, n1, e1⟩, g2, _, rfl, s2, g3, _, rfl, ⟨a3, n3, e3⟩, g4, _, rfl, ⟨a4, e4⟩, g5, _, rfl, s5, g6, _, rfl, ⟨a6, e6⟩, rfl⟩ := hs
    have e2 := fx rfl s2
    have e5 := fx rfl s5
    exact ⟨.item (.date a6 a4 a3 a1), by simp [AExpr.valid, Item.valid, n1, n3], rfl, by simp [flatRev, e1, e2, e3, e4, e5, e6, AExpr.toks, Item.toks]⟩

/-! ### Stacks -/

/-- Well-formed stacks of states with the tokens read for them, top first. -/
def VOk : List (Nat × List Tok) → Prop
  | [] => False
  | [g] => g.1 = 0 ∧ g.2 = []
  | g :: g' :: r => g.1 < 75 ∧ trans g'.1 (stos g.1) = some g.1 ∧ Syn (stos g.1) g.2 ∧
      (g.1 = 23 → IsItem g'.2) ∧ VOk (g' :: r)

theorem VOk.lt {g : Nat × List Tok} {r : List (Nat × List Tok)} (h : VOk (g :: r)) : g.1 < 75 := by
  cases r with
  | nil => simp [VOk] at h; omega
  | cons g' r => exact h.1

theorem trans_fin : ∀ x, x ≤ 35 → trans 10 x = none := by decide +kernel
theorem stos_zero : ∀ s, s < 75 → stos s = 0 → s = 0 ∨ s = 10 := by decide +kernel

theorem VOk.of_GOk : ∀ {G : List GEnt} {g : GEnt} {r : List GEnt}, G = g :: r → GOk G → g.st ≠ 10 →
    VOk (G.map fun g => (g.st, g.seg))
  | [g], _, _, _, h, _ => h
  | g :: g' :: r, _, _, hG, h, h10 => by
    injection hG with hg _
    subst hg
    refine ⟨h.1, h.2.1, ?_, h.2.2.2.1, VOk.of_GOk rfl h.2.2.2.2.2 ?_⟩
    · refine Syn.of_symOk h.2.2.1 fun h0 => ?_
      have h1 := goto_facts h.2.2.2.2.2.lt (stos_le _ h.1) h.2.1
      rcases stos_zero _ h.1 h0 with h2 | h2
      · omega
      · exact h10 h2
    · intro h'
      have := h.2.1
      rw [h', trans_fin _ (stos_le _ h.1)] at this
      cases this

theorem flatRev_segsOf : ∀ G : List GEnt, flatRev ((G.map fun g => (g.st, g.seg)).map Prod.snd) = segsOf G
  | [] => rfl
  | g :: G => by simp only [List.map_cons, flatRev, segsOf, flatRev_segsOf G]

theorem vback {a : Nat} : ∀ (xs : List Nat) (V : List (Nat × List Tok)) (g : Nat × List Tok) (r : List (Nat × List Tok)), V = g :: r →
    VOk V → back a xs g.1 = true → (∀ x ∈ xs, x ≠ 0) →
    ∃ P g0 R, V = P ++ g0 :: R ∧ P.map (fun g => stos g.1) = xs ∧ SynL (P.map Prod.snd) xs ∧ (trans g0.1 a).isSome ∧ VOk (g0 :: R)
  | [], V, g, r, hV, hok, hb, _ => ⟨[], g, r, by simp [hV], rfl, trivial, hb, hV ▸ hok⟩
  | x :: xs, V, g, r, hV, hok, hb, hx => by
    subst hV
    simp only [back, Bool.and_eq_true, decide_eq_true_eq] at hb
    cases r with
    | nil =>
      exfalso
      simp only [VOk] at hok
      have : stos 0 = 0 := by decide
      rw [hok.1, this] at hb
      exact hx x (by simp) hb.1.symm
    | cons g' r =>
      have hlt : g'.1 < 75 := VOk.lt hok.2.2.2.2
      have h1 := List.all_eq_true.mp hb.2 g'.1 (by simp [states]; omega)
      simp only [Bool.or_eq_true, Bool.not_eq_true', decide_eq_false_iff_not] at h1
      have h2 : back a xs g'.1 = true := by
        rcases h1 with h1 | h1
        · exact absurd (hb.1 ▸ hok.2.1) h1
        · exact h1
      obtain ⟨P, g0, R, e1, e2, e3, e4, e5⟩ := vback xs (g' :: r) g' r rfl hok.2.2.2.2 h2
        (fun y hy => hx y (List.mem_cons_of_mem _ hy))
      refine ⟨g :: P, g0, R, by rw [e1]; rfl, by simp [e2, hb.1], ⟨?_, e3⟩, e4, e5⟩
      rw [← hb.1]
      exact hok.2.2.1

/-! ### Completion -/

/-- The item chosen for a state: a rule and the number of symbols of its right-hand side that have been read. -/
def pickItem (s : Nat) : Nat × Nat :=
  [(0, 0), (2, 1), (3, 1), (0, 0), (6, 1), (14, 1), (2, 2), (23, 1), (24, 1), (3, 2), (0, 0), (13, 2), (11, 2), (12, 2), (15, 2),
   (9, 2), (10, 2), (17, 2), (14, 2), (7, 2), (8, 2), (27, 2), (24, 2), (25, 2), (5, 1), (13, 3), (22, 3), (11, 3), (21, 3),
   (12, 3), (15, 3), (16, 3), (20, 3), (9, 3), (19, 3), (10, 3), (17, 3), (14, 3), (7, 3), (8, 3), (28, 3), (27, 3), (26, 3),
   (4, 2), (22, 4), (21, 4), (15, 4), (16, 4), (20, 4), (19, 4), (17, 4), (28, 4), (4, 3), (22, 5), (21, 5), (15, 5), (16, 5),
   (20, 5), (19, 5), (18, 5), (17, 5), (28, 5), (22, 6), (21, 6), (15, 6), (16, 6), (20, 6), (19, 6), (18, 6), (17, 6), (28, 6),
   (15, 7), (16, 7), (18, 7), (18, 8)].getD s (0, 0)

/-- Tokens that complete a symbol. -/
def defSeg (x : Nat) : List Tok :=
  match x with
  | 4 | 34 | 35 => [.leaf b!"a"]
  | 5 | 33 => [.uint 32]
  | x => (tokOf x).toList

/-- The symbols still to be read, last first. -/
def todo (s : Nat) : List Nat := (rhsRev (pickItem s).1).take ((rhsRev (pickItem s).1).length - (pickItem s).2)

/-- The symbols that have been read, last first. -/
def doneSyms (s : Nat) : List Nat := (rhsRev (pickItem s).1).drop ((rhsRev (pickItem s).1).length - (pickItem s).2)

theorem pick_ok : (states.all fun s => decide (s = 0) || decide (s = 3) || decide (s = 10) || decide (s = 52) ||
    (decide (2 ≤ (pickItem s).1) && decide ((pickItem s).1 ≤ 28) &&
      back (yyR1.getD (pickItem s).1 0).toNat (doneSyms s) s && decide (2 ≤ ((doneSyms s).map wt).sum) &&
      decide ((pickItem s).1 = 4 → s = 43) && decide ((pickItem s).1 = 25 → s = 23) && decide ((pickItem s).1 = 26 → s = 42))) = true := by
  decide +kernel

theorem pick_facts {s : Nat} (hs : s < 75) (h0 : s ≠ 0) (h3 : s ≠ 3) (h10 : s ≠ 10) (h52 : s ≠ 52) :
    2 ≤ (pickItem s).1 ∧ (pickItem s).1 ≤ 28 ∧ back (yyR1.getD (pickItem s).1 0).toNat (doneSyms s) s = true ∧
      2 ≤ ((doneSyms s).map wt).sum ∧ ((pickItem s).1 = 4 → s = 43) ∧
      ((pickItem s).1 = 25 → s = 23) ∧ ((pickItem s).1 = 26 → s = 42) := by
  have h1 := List.all_eq_true.mp pick_ok s (by simp [states]; omega)
  simp only [Bool.and_eq_true, Bool.or_eq_true, decide_eq_true_eq] at h1
  rcases h1 with (((h | h) | h) | h) | ⟨⟨⟨⟨⟨⟨a, b⟩, c⟩, d⟩, e⟩, f⟩, g⟩
  · exact absurd h h0
  · exact absurd h h3
  · exact absurd h h10
  · exact absurd h h52
  · exact ⟨a, b, c, d, e, f, g⟩

theorem rhs_syms : ∀ r, r ≤ 28 → ∀ x ∈ rhsRev r, x ∈ [4, 5, 9, 10, 12, 14, 15, 17, 18, 19, 20, 21, 22, 23, 24, 25, 26, 27, 28, 29, 30, 33, 34, 35] := by
  decide +kernel

theorem syn_def {x : Nat} (h : x ∈ [4, 5, 9, 10, 12, 14, 15, 17, 18, 19, 20, 21, 22, 23, 24, 25, 26, 27, 28, 29, 30, 33, 34, 35]) :
    Syn x (defSeg x) := by
  simp only [List.mem_cons, List.not_mem_nil, or_false] at h
  rcases h with h | h | h | h | h | h | h | h | h | h | h | h | h | h | h | h | h | h | h | h | h | h | h | h <;> subst h <;>
    first
      | exact ⟨_, rfl, rfl⟩
      | exact ⟨_, rfl⟩
      | exact ⟨.flex 32, rfl, rfl⟩
      | exact ⟨.leaf b!"a", rfl, rfl⟩
      | exact ⟨.item (.leaf b!"a"), rfl, rfl, rfl⟩

theorem synL_def {r : Nat} (hr : r ≤ 28) : ∀ xs : List Nat, (∀ x ∈ xs, x ∈ rhsRev r) → SynL (xs.map defSeg) xs
  | [], _ => trivial
  | x :: xs, h => ⟨syn_def (rhs_syms r hr x (h x (by simp))), synL_def hr xs fun y hy => h y (by simp [hy])⟩

theorem lhs_range : ∀ r, r ≤ 28 → 2 ≤ r → (yyR1.getD r 0).toNat ∈ [32, 33, 34, 35] := by decide +kernel
theorem todo43 : todo 43 = [5] ∧ pickItem 43 = (4, 2) := by decide
theorem stos52 : stos 52 = 5 := by decide
theorem done23 : doneSyms 23 = [30, 35] ∧ doneSyms 42 = [35, 30, 35] := by decide
theorem into42 : (states.all fun s => !decide (trans s 35 = some 42) || decide (s = 23)) = true := by decide +kernel
theorem defSeg_ok : ∀ x, x ≤ 35 → (defSeg x).all (fun t => match t with | .leaf s => isName s | .uint n => decide (1 ≤ n.toNat ∧ n.toNat < 2 ^ 32 - 1) | _ => true) = true := by
  decide +kernel

theorem defSeg_tokOk {x : Nat} (hx : x ≤ 35) : ∀ t ∈ defSeg x, TokOk t := by
  intro t ht
  have := List.all_eq_true.mp (defSeg_ok x hx) t ht
  cases t <;> first | trivial | (simpa [TokOk] using this)

theorem flatRev_mem {t : Tok} : ∀ {P : List (List Tok)}, t ∈ flatRev P → ∃ g ∈ P, t ∈ g
  | [], h => by simp [flatRev] at h
  | g :: P, h => by
    simp only [flatRev, List.mem_append] at h
    rcases h with h | h
    · obtain ⟨g', h1, h2⟩ := flatRev_mem h
      exact ⟨g', List.mem_cons_of_mem _ h1, h2⟩
    · exact ⟨g, by simp, h⟩

theorem valid32 (n : UInt32) : checkValidBit n 32 = true := by
  rw [checkValidBit_iff]
  have := n.toNat_lt
  refine ⟨by decide, ?_⟩
  show n.toNat ≤ 2 ^ 32 - 1
  omega

/-- Weight of a stack. -/
def vmeas (V : List (Nat × List Tok)) : Nat := (V.map fun g => wt (stos g.1)).sum

/-- Every stack of the parser can be completed. -/
theorem complete_from : ∀ (n : Nat) (V : List (Nat × List Tok)) (g : Nat × List Tok) (r : List (Nat × List Tok)), V = g :: r → VOk V →
    vmeas V ≤ n → g.1 ≠ 10 → g.1 ≠ 52 →
    ∃ w, Syn 32 (flatRev (V.map Prod.snd) ++ w) ∧ (g.1 = 43 → w.head? = some (.uint 32)) ∧ (g.1 = 3 → w = []) ∧ ∀ t ∈ w, TokOk t := by
  intro n
  induction n with
  | zero =>
    intro V g r hV _ hm _ _
    subst hV
    simp only [vmeas, List.map_cons, List.sum_cons, wt] at hm
    split at hm <;> omega
  | succ n ih =>
    intro V g r hV hok hm h10 h52
    have hlt : g.1 < 75 := VOk.lt (r := r) (hV ▸ hok)
    by_cases h0 : g.1 = 0
    · subst hV
      cases r with
      | nil =>
        refine ⟨[.startPolicy, .leaf b!"a"], Or.inl ⟨.leaf b!"a", rfl, ?_⟩, (fun h => by omega), (fun h => by omega), ?_⟩
        · simp [flatRev, hok.2, Expr.toks]
        · intro t ht
          simp at ht
          rcases ht with h | h
          · subst h; trivial
          · subst h; show isName _ = true; decide
      | cons g' r =>
        have h1 := goto_facts hok.2.2.2.2.lt (stos_le _ hok.1) hok.2.1
        omega
    by_cases h3 : g.1 = 3
    · subst hV
      cases r with
      | nil => simp only [VOk] at hok; omega
      | cons g' r =>
        have hs3 : stos 3 = 32 := by decide
        have ht := hok.2.1
        rw [h3, hs3] at ht
        have hz := trans_32 ht
        have hr : r = [] := by
          cases r with
          | nil => rfl
          | cons g'' r =>
            exfalso
            have h1 := goto_facts hok.2.2.2.2.2.2.2.2.lt (stos_le _ hok.2.2.2.2.1) hok.2.2.2.2.2.1
            omega
        subst hr
        have hsy := hok.2.2.1
        rw [h3, hs3] at hsy
        refine ⟨[], ?_, (fun h => by omega), (fun _ => rfl), by simp⟩
        have hnil : g'.2 = [] := hok.2.2.2.2.2
        simpa [flatRev, hnil] using hsy
    obtain ⟨p2, p28, pb, pw, p4, p25, p26⟩ := pick_facts hlt h0 h3 h10 h52
    have hne0 : ∀ x ∈ doneSyms g.1, x ≠ 0 := fun x hx => rhs_ne0 _ p28 x (List.mem_of_mem_drop hx)
    obtain ⟨P, g0, R, hPV, hPs, hPy, hgo, hok0⟩ := vback (doneSyms g.1) V g r hV hok pb hne0
    have hB : SynL ((todo g.1).map defSeg) (todo g.1) := synL_def p28 _ fun x hx => List.mem_of_mem_take hx
    have hall : SynL ((todo g.1).map defSeg ++ P.map Prod.snd) (rhsRev (pickItem g.1).1) := by
      have := hB.append hPy
      rwa [todo, doneSyms, List.take_append_drop] at this
    have hA := rule_syn p2 p28 hall (by
      intro hr4 n b hf
      have h43 := p4 hr4
      rw [h43, todo43.1] at hf
      have : flatRev (List.map defSeg [5] ++ List.map Prod.snd P) = flatRev (List.map Prod.snd P) ++ [.uint 32] := by
        simp [flatRev, defSeg]
      rw [this] at hf
      have hlast := congrArg List.getLast? hf
      simp at hlast
      subst hlast
      exact valid32 n) (by
      intro h
      have hPm := hPs
      rcases h with h | h
      · have h23 := p25 h
        rw [h23, done23.1] at hPm
        cases P with
        | nil => simp at hPm
        | cons q1 P =>
        cases P with
        | nil => simp at hPm
        | cons q2 P =>
        cases P with
        | cons q3 P => simp at hPm
        | nil =>
        rw [hV] at hPV
        simp only [List.cons_append, List.nil_append, List.cons.injEq] at hPV
        obtain ⟨rfl, rfl⟩ := hPV
        rw [hV] at hok
        exact ⟨q2.2, by simp, hok.2.2.2.1 h23⟩
      · have h42 := p26 h
        rw [h42, done23.2] at hPm
        cases P with
        | nil => simp at hPm
        | cons q1 P =>
        cases P with
        | nil => simp at hPm
        | cons q2 P =>
        cases P with
        | nil => simp at hPm
        | cons q3 P =>
        cases P with
        | cons q4 P => simp at hPm
        | nil =>
        rw [hV] at hPV
        simp only [List.cons_append, List.nil_append, List.cons.injEq] at hPV
        obtain ⟨rfl, rfl⟩ := hPV
        rw [hV] at hok
        have ht := hok.2.1
        have hs42 : stos 42 = 35 := by decide
        rw [h42, hs42] at ht
        have h23 : q2.1 = 23 := by
          have := List.all_eq_true.mp into42 q2.1 (by simp [states]; exact hok.2.2.2.2.lt)
          simpa [ht] using this
        exact ⟨q3.2, by simp, hok.2.2.2.2.2.2.2.1 h23⟩)
    obtain ⟨m, hm'⟩ := Option.isSome_iff_exists.mp hgo
    have hlhs := lhs_range _ p28 p2
    have h35 : (yyR1.getD (pickItem g.1).1 0).toNat ≤ 35 ∧ 30 < (yyR1.getD (pickItem g.1).1 0).toNat := by
      simp only [List.mem_cons, List.not_mem_nil, or_false] at hlhs
      omega
    obtain ⟨f1, f2, f3, f4⟩ := goto_facts hok0.lt h35.1 hm'
    have f4' := f4 h35.2
    have hV' : VOk ((m, flatRev ((todo g.1).map defSeg ++ P.map Prod.snd)) :: g0 :: R) :=
      ⟨f1, by rw [f2]; exact hm', by rw [f2]; exact hA, fun h => absurd h f4'.2.2.1, hok0⟩
    have hmeas : vmeas V = ((doneSyms g.1).map wt).sum + vmeas (g0 :: R) := by
      rw [hPV, ← hPs]
      simp [vmeas, Function.comp_def]
    have hw1 : wt (stos m) = 1 := by rw [f2]; unfold wt; rw [if_neg (by omega)]
    have hm2 : vmeas ((m, flatRev ((todo g.1).map defSeg ++ P.map Prod.snd)) :: g0 :: R) ≤ n := by
      have : vmeas ((m, flatRev ((todo g.1).map defSeg ++ P.map Prod.snd)) :: g0 :: R) = wt (stos m) + vmeas (g0 :: R) := by
        simp [vmeas]
      omega
    have hm52 : m ≠ 52 := by
      intro h
      rw [h, stos52] at f2
      omega
    obtain ⟨w, hw, -, -, hwok⟩ := ih _ _ _ rfl hV' hm2 f4'.2.1 hm52
    refine ⟨flatRev ((todo g.1).map defSeg) ++ w, ?_, ?_, (fun h => absurd h h3), ?_⟩
    · have e : flatRev (V.map Prod.snd) ++ flatRev ((todo g.1).map defSeg) =
          flatRev (((m, flatRev ((todo g.1).map defSeg ++ P.map Prod.snd)) :: g0 :: R).map Prod.snd) := by
        rw [hPV]
        simp only [List.map_append, List.map_cons, flatRev, flatRev_append, List.append_assoc]
      rw [← List.append_assoc, e]
      exact hw
    · intro h43
      rw [h43, todo43.1]
      rfl
    · intro t ht
      rcases List.mem_append.mp ht with h | h
      · obtain ⟨q, hq, hqt⟩ := flatRev_mem h
        obtain ⟨x, hx, rfl⟩ := List.mem_map.mp hq
        have hmem := rhs_syms _ p28 x (List.mem_of_mem_take hx)
        refine defSeg_tokOk ?_ t hqt
        simp only [List.mem_cons, List.not_mem_nil, or_false] at hmem
        omega
      · exact hwok t h

end Abe
