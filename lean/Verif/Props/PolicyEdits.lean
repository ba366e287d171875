import Verif.Proof.PolicyEdits
import Verif.Props.Outcome
/-!
# C156: exactly what `addToRootOfInput` returns

For every policy text, every added text and every sequence of additions.
-/
set_option linter.unusedSimpArgs false
set_option linter.unusedSectionVars false
set_option autoImplicit false
namespace Abe
open Edit
variable {mk : Mktime}

theorem edit_lex (s r : Bytes) (ty : Gate) (hty : ty = .and ∨ ty = .or) :
    lex (b!"(" ++ s ++ b!")" ++ gateString ty ++ r) =
      .chr 40 :: (lex s ++ .chr 41 :: (if ty = .and then Tok.and else .or) :: lex r) := by
  rcases hty with rfl | rfl
  · have e1 : b!"(" ++ s ++ b!")" ++ gateString .and ++ r = 40 :: (s ++ 41 :: ([] ++ 32 :: (b!"and " ++ r))) := by
      simp [gateString]
    rw [e1, lex_open, lex_stop_close, lex_stop_space, lex_and]
    simp [lex_nil]
  · have e1 : b!"(" ++ s ++ b!")" ++ gateString .or ++ r = 40 :: (s ++ 41 :: ([] ++ 32 :: (b!"or " ++ r))) := by
      simp [gateString]
    rw [e1, lex_open, lex_stop_close, lex_stop_space, lex_or]
    simp [lex_nil]

theorem effective_go {l ts : List Tok} (hl : ∀ t ∈ l, t.sym ≠ 0) : effective (l ++ ts) = l ++ effective ts := by
  unfold effective
  rw [List.takeWhile_append_of_pos (by simpa using hl)]

theorem effective_stays {l : List Tok} (ts : List Tok) (hl : ∃ t ∈ l, t.sym = 0) : effective (l ++ ts) = effective l := by
  induction l with
  | nil => obtain ⟨t, ht, _⟩ := hl; cases ht
  | cons t l ih =>
    by_cases h : t.sym = 0
    · simp [effective, h]
    · obtain ⟨u, hu, h0⟩ := hl
      have hu' : u ∈ l := by
        rcases List.mem_cons.mp hu with rfl | hu
        · exact absurd h0 h
        · exact hu
      have := ih ⟨u, hu', h0⟩
      unfold effective at this ⊢
      simp only [List.cons_append, List.takeWhile_cons, this]

theorem dirty_byte : ∀ c : UInt8, ¬ (c ≠ 0 ∧ c < 128) → isWord c = false ∧ isDigit c = false ∧ c ≠ 61 ∧ isBlank c = false ∧
    isStart c = false ∧ isCmp c = false ∧ (Tok.chr c).sym = 0 ∧ c ≠ 10 ∧ c ≠ 13 := by
  have h : ∀ n : Fin 256, ¬ (UInt8.ofFin n ≠ 0 ∧ UInt8.ofFin n < 128) → isWord (UInt8.ofFin n) = false ∧
      isDigit (UInt8.ofFin n) = false ∧ UInt8.ofFin n ≠ 61 ∧ isBlank (UInt8.ofFin n) = false ∧
      isStart (UInt8.ofFin n) = false ∧ isCmp (UInt8.ofFin n) = false ∧ (Tok.chr (UInt8.ofFin n)).sym = 0 ∧
      UInt8.ofFin n ≠ 10 ∧ UInt8.ofFin n ≠ 13 := by decide +kernel
  intro c
  exact h c.toFin

theorem dirty_stops {s : Bytes} (h : ¬ CleanText s) : ∃ t ∈ lex s, t.sym = 0 := by
  unfold CleanText at h
  push Not at h
  obtain ⟨c, hc, h⟩ := h
  have hd := dirty_byte c (by rintro ⟨h1, h2⟩; exact absurd h2 (by simpa using h h1))
  obtain ⟨u, v, rfl⟩ := List.append_of_mem hc
  rw [lex_stop hd.1 hd.2.1 hd.2.2.1]
  refine ⟨.chr c, List.mem_append_right _ ?_, hd.2.2.2.2.2.2.1⟩
  rw [lex_cons]
  simp [hd]

/-- The text of an accepted policy is kept. -/
theorem accepted_input {s : Bytes} {e : Expr} {t : TNode} {d' : Drv} (hev : e.eval mk { input := s } = .ok (t, d')) : d'.input = s := by
  have := e.eval_input (mk := mk) s { input := s }
  rw [hev] at this
  simp only [withInput, Res.bind, Res.ok.injEq, Prod.mk.injEq, true_and] at this
  rw [this]

theorem fine_undefined {e : Expr} {s : Bytes} (hv : e.valid = true) (he : effective (lex s) = e.toks) :
    Fine mk e ↔ ∀ c ∈ e.conds, ¬ (c.cond mk).Undefined := by
  have ht : ∀ t ∈ e.toks, TokOk t := fun t h => tokOk_of_lex ((effective_prefix s).subset (he ▸ h))
  rcases e.eval_total (mk := mk) hv ht {} with ⟨⟨c, hc, hu⟩, h⟩ | ⟨h1, h2⟩
  · refine ⟨?_, fun h' => absurd hu (h' c hc)⟩
    rintro ⟨t, d, h'⟩; rw [h] at h'; cases h'
  · exact ⟨fun _ => h1, fun _ => h2⟩

theorem accepted_fine (s : Bytes) : (∃ p, createPolicyTree mk s = .ok (some p)) ↔
    ∃ e : Expr, e.valid = true ∧ e.canon = true ∧ effective (lex s) = e.toks ∧ Fine mk e := by
  rw [C146_accepted_iff]
  constructor
  · rintro ⟨e, h1, h2, h3, h4⟩; exact ⟨e, h1, h2, h3, (fine_undefined h1 h3).mpr h4⟩
  · rintro ⟨e, h1, h2, h3, h4⟩; exact ⟨e, h1, h2, h3, (fine_undefined h1 h3).mp h4⟩

/-- The new formula. -/
def grafted (ty : Gate) (e r : Expr) : Expr := if ty = .and then graftAnd (.paren e) r else graftOr (.paren e) r

theorem grafted_facts {ty : Gate} {e r : Expr} (hc : e.canon = true) (hv : e.valid = true) (hrc : r.canon = true) (hrv : r.valid = true) :
    (grafted ty e r).canon = true ∧ (grafted ty e r).valid = true ∧
    (grafted ty e r).toks = .chr 40 :: (e.toks ++ .chr 41 :: (if ty = .and then Tok.and else .or) :: r.toks) ∧
    (Fine mk (grafted ty e r) ↔ Fine mk e ∧ Fine mk r) := by
  have hp : (Expr.paren e).canon = true := hc
  have hpv : (Expr.paren e).valid = true := hv
  unfold grafted
  split
  · exact ⟨graftAnd_canon _ hp rfl _ hrc, by rw [graftAnd_valid, hpv, hrv]; rfl, by rw [graftAnd_toks]; simp [Expr.toks],
      fine_graftAnd _ _⟩
  · exact ⟨graftOr_canon _ hp _ hrc, by rw [graftOr_valid, hpv, hrv]; rfl, by rw [graftOr_toks]; simp [Expr.toks],
      fine_graftOr _ _⟩

theorem grafted_effective {ty : Gate} (hty : ty = .and ∨ ty = .or) {s r : Bytes} {e er : Expr} (hs : CleanText s)
    (he : effective (lex s) = e.toks) (her : effective (lex r) = er.toks) :
    effective (lex (b!"(" ++ s ++ b!")" ++ gateString ty ++ r)) =
      .chr 40 :: (e.toks ++ .chr 41 :: (if ty = .and then Tok.and else .or) :: er.toks) := by
  rw [effective_clean hs] at he
  rw [edit_lex s r ty hty, he]
  have : Tok.chr 40 :: (e.toks ++ Tok.chr 41 :: (if ty = .and then Tok.and else .or) :: lex r) =
      (Tok.chr 40 :: (e.toks ++ [Tok.chr 41, if ty = .and then Tok.and else .or])) ++ lex r := by simp
  rw [this, effective_go, her]
  · simp
  · intro t ht
    simp only [List.mem_cons, List.mem_append, List.not_mem_nil, or_false] at ht
    rcases ht with rfl | ht | rfl | rfl
    · decide
    · exact e.sym_ne t ht
    · decide
    · split <;> decide

/-- **When something can be added.** For every accepted policy text `s` and every text `r`, adding `r` with
`and` or with `or` returns a policy exactly if `s` has no NUL and no byte above 127 and `r` is itself an
accepted policy text. -/
theorem C156_policy_iff (s r : Bytes) (p : Policy) (h : createPolicyTree mk s = .ok (some p)) (ty : Gate) (hty : ty = .and ∨ ty = .or) :
    (∃ p', addToRootOfInput mk ty r p = .ok (some p')) ↔ CleanText s ∧ ∃ q, createPolicyTree mk r = .ok (some q) := by
  obtain ⟨e, t, d', hv, hc, he, hev, rfl⟩ := accepted_eval h
  have hin := accepted_input hev
  have hadd : addToRootOfInput mk ty r (builtPolicy d' t) = createPolicyTree mk (b!"(" ++ s ++ b!")" ++ gateString ty ++ r) := by
    unfold addToRootOfInput
    rw [show (builtPolicy d' t).compact = s from hin]
    rfl
  rw [hadd, accepted_fine]
  constructor
  · rintro ⟨x, hxv, hxc, hx, hxf⟩
    have hclean : CleanText s := by
      by_contra hd
      have hstop := dirty_stops hd
      rw [edit_lex s r ty hty] at hx
      have e1 : effective (Tok.chr 40 :: (lex s ++ Tok.chr 41 :: (if ty = .and then Tok.and else .or) :: lex r)) = .chr 40 :: e.toks := by
        have := effective_go (l := [Tok.chr 40]) (ts := lex s ++ Tok.chr 41 :: (if ty = .and then Tok.and else .or) :: lex r)
          (by intro t ht; simp only [List.mem_singleton] at ht; subst ht; decide)
        rw [List.singleton_append] at this
        rw [this, effective_stays _ hstop, he]; rfl
      rw [e1] at hx
      have := (expr_nice x).1
      rw [← hx, bal_cons, (expr_nice e).1] at this
      revert this; decide
    refine ⟨hclean, (accepted_fine r).mpr ?_⟩
    have he' := he
    rw [effective_clean hclean] at he'
    rw [edit_lex s r ty hty, he'] at hx
    have e2 : Tok.chr 40 :: (e.toks ++ Tok.chr 41 :: (if ty = .and then Tok.and else .or) :: lex r) =
        (Tok.chr 40 :: (e.toks ++ [Tok.chr 41, if ty = .and then Tok.and else .or])) ++ lex r := by simp
    rw [e2, effective_go] at hx
    · obtain ⟨er, h1, h2, h3, _⟩ := behind e (if ty = .and then Tok.and else .or) (by split <;> simp) x (effective (lex r)) hxv hxc
        (by rw [← hx]; simp)
      refine ⟨er, h1, h2, h3.symm, ?_⟩
      have g := grafted_facts (mk := mk) (ty := ty) hc hv h2 h1
      have hge : effective (lex (b!"(" ++ s ++ b!")" ++ gateString ty ++ r)) = (grafted ty e er).toks := by
        rw [g.2.2.1]; exact grafted_effective hty hclean he h3.symm
      have hacc : ∃ p, createPolicyTree mk (b!"(" ++ s ++ b!")" ++ gateString ty ++ r) = .ok (some p) :=
        (accepted_fine _).mpr ⟨x, hxv, hxc, by rw [edit_lex s r ty hty, he', e2, effective_go, hx]; exact sym_ok e ty, hxf⟩
      exact (g.2.2.2.mp ((fine_undefined g.2.1 hge).mpr ((C146_formula _ _ g.1 g.2.1 hge).1.mp hacc))).2
    · exact sym_ok e ty
  · rintro ⟨hclean, hq⟩
    obtain ⟨er, h1, h2, h3, h4⟩ := (accepted_fine r).mp hq
    have g := grafted_facts (mk := mk) (ty := ty) hc hv h2 h1
    exact ⟨_, g.2.1, g.1, by rw [g.2.2.1]; exact grafted_effective hty hclean he h3, g.2.2.2.mpr ⟨fine_of hev, h4⟩⟩
where
  sym_ok (e : Expr) (ty : Gate) : ∀ t ∈ Tok.chr 40 :: (e.toks ++ [Tok.chr 41, if ty = .and then Tok.and else .or]), t.sym ≠ 0 := by
    intro t ht
    simp only [List.mem_cons, List.mem_append, List.not_mem_nil, or_false] at ht
    rcases ht with rfl | ht | rfl | rfl
    · decide
    · exact e.sym_ne t ht
    · decide
    · split <;> decide

theorem added {s r : Bytes} {p q : Policy} {t u : TNode} (h : createPolicyTree mk s = .ok (some p)) (ht : p.root = some t)
    (hs : CleanText s) (hq : createPolicyTree mk r = .ok (some q)) (hu : q.root = some u) (ty : Gate) (hty : ty = .and ∨ ty = .or) :
    ∃ (p' : Policy) (t' : TNode) (er : Expr), addToRootOfInput mk ty r p = .ok (some p') ∧ p'.root = some t' ∧
      p'.compact = b!"(" ++ s ++ b!")" ++ gateString ty ++ r ∧
      createPolicyTree mk (b!"(" ++ s ++ b!")" ++ gateString ty ++ r) = .ok (some p') ∧
      effective (lex r) = er.toks ∧ er.canon = true ∧ (∀ A, er.Met mk A ↔ sat A u = true) ∧
      (∀ A, sat A t' = true ↔ if ty = .and then (∀ (x : Expr) (xs : List Expr), er.alts = x :: xs → (sat A t = true ∧ x.Met mk A) ∨ ∃ y ∈ xs, y.Met mk A)
        else sat A t = true ∨ sat A u = true) := by
  obtain ⟨e, t0, d', hv, hc, he, hev, rfl⟩ := accepted_eval h
  obtain ⟨er, u0, d2, hrv, hrc, her, hrev, rfl⟩ := accepted_eval hq
  cases ht; cases hu
  have hin := accepted_input hev
  have g := grafted_facts (mk := mk) (ty := ty) hc hv hrc hrv
  have hf := g.2.2.2.mpr ⟨fine_of hev, fine_of hrev⟩
  obtain ⟨t', d3, hx⟩ := fine_eval hf { input := b!"(" ++ s ++ b!")" ++ gateString ty ++ r }
  have hpol := policy_of_eval g.1 g.2.1 (by rw [g.2.2.1]; exact grafted_effective hty hs he her) hx
  refine ⟨builtPolicy d3 t', t', er, ?_, rfl, accepted_input hx, hpol, her, hrc, fun A => met_iff hrev A, fun A => ?_⟩
  · unfold addToRootOfInput
    rw [show (builtPolicy d' t).compact = s from hin]
    exact hpol
  · have hpm : (Expr.paren e).Met mk A ↔ sat A t = true := met_iff (show (Expr.paren e).eval mk _ = _ from hev) A
    rw [← met_iff hx]
    unfold grafted at hf ⊢
    by_cases hand : ty = .and
    · rw [if_pos hand] at hf
      rw [if_pos hand, if_pos hand]
      obtain ⟨x, xs, hal⟩ := alts_ne er
      rw [met_graftAnd _ A er x xs hrc hal hf, hpm]
      constructor
      · intro h y ys hy; rw [hal] at hy; cases hy; exact h
      · intro h; exact h x xs hal
    · rw [if_neg hand] at hf
      rw [if_neg hand, if_neg hand, met_graftOr _ A er hf, hpm, met_iff hrev]

/-- **Adding a disjunct.** Whatever accepted policy text `r` is added with `or`: the result is satisfied exactly
by the attributes that satisfy the policy or satisfy `r`. -/
theorem C156_or (s r : Bytes) (p q : Policy) (t u : TNode) (h : createPolicyTree mk s = .ok (some p)) (ht : p.root = some t)
    (hs : CleanText s) (hq : createPolicyTree mk r = .ok (some q)) (hu : q.root = some u) :
    ∃ p' t', addToRootOfInput mk .or r p = .ok (some p') ∧ p'.root = some t' ∧
      ∀ A, sat A t' = true ↔ sat A t = true ∨ sat A u = true := by
  obtain ⟨p', t', _, h1, h2, _, _, _, _, _, h3⟩ := added h ht hs hq hu .or (Or.inr rfl)
  exact ⟨p', t', h1, h2, fun A => by rw [h3 A]; simp⟩

/-- **Adding a conjunct.** If the accepted policy text `r` is added with `and`, only its first alternative becomes a
conjunct: the result is satisfied by the attributes that satisfy the policy and the first alternative of `r`, and by all
that satisfy any further alternative. -/
theorem C156_and (s r : Bytes) (p q : Policy) (t u : TNode) (h : createPolicyTree mk s = .ok (some p)) (ht : p.root = some t)
    (hs : CleanText s) (hq : createPolicyTree mk r = .ok (some q)) (hu : q.root = some u) :
    ∃ (p' : Policy) (t' : TNode) (er x : Expr) (xs : List Expr), addToRootOfInput mk .and r p = .ok (some p') ∧ p'.root = some t' ∧
      effective (lex r) = er.toks ∧ er.canon = true ∧ er.alts = x :: xs ∧ (∀ A, er.Met mk A ↔ sat A u = true) ∧
      ∀ A, sat A t' = true ↔ (sat A t = true ∧ x.Met mk A) ∨ ∃ y ∈ xs, y.Met mk A := by
  obtain ⟨p', t', er, h1, h2, _, _, h4, h5, h6, h3⟩ := added h ht hs hq hu .and (Or.inl rfl)
  obtain ⟨x, xs, hal⟩ := alts_ne er
  refine ⟨p', t', er, x, xs, h1, h2, h4, h5, hal, h6, fun A => ?_⟩
  rw [h3 A, if_pos rfl]
  constructor
  · intro h; exact h x xs hal
  · intro h y ys hy; rw [hal] at hy; cases hy; exact h

/-- **When the conjunct is one.** If no `or` of `r` is outside of parentheses, all of `r` becomes a conjunct. -/
theorem C156_and_exact (s r : Bytes) (p q : Policy) (t u : TNode) (h : createPolicyTree mk s = .ok (some p)) (ht : p.root = some t)
    (hs : CleanText s) (hq : createPolicyTree mk r = .ok (some q)) (hu : q.root = some u)
    (hno : ∀ e : Expr, e.canon = true → effective (lex r) = e.toks → e.isOr = false) :
    ∃ p' t', addToRootOfInput mk .and r p = .ok (some p') ∧ p'.root = some t' ∧
      ∀ A, sat A t' = true ↔ sat A t = true ∧ sat A u = true := by
  obtain ⟨p', t', er, x, xs, h1, h2, h4, h5, hal, h6, h3⟩ := C156_and s r p q t u h ht hs hq hu
  rw [alts_single (hno er h5 h4)] at hal
  cases hal
  exact ⟨p', t', h1, h2, fun A => by rw [h3 A, h6 A]; simp⟩

/-! ### Attribute names, and sequences of additions -/

theorem name_policy {a : Bytes} (ha : isName a = true) (ha' : PlainOk a) :
    ∃ q u, createPolicyTree mk a = .ok (some q) ∧ q.root = some u ∧ ∀ A, sat A u = true ↔ a ∈ A := by
  obtain ⟨u, d2, hu, hsat⟩ := leafNode_canon (d := { input := a }) (ha'.canon (name_ne_nil ha))
  have hl : effective (lex a) = (Expr.leaf a).toks := by
    rw [lex_name' ha]; exact effective_self (Expr.leaf a).sym_ne
  exact ⟨_, u, policy_of_eval (e := .leaf a) rfl rfl hl hu, rfl, fun A => by rw [hsat]; simp⟩

theorem name_noOr {a : Bytes} (ha : isName a = true) (e : Expr) (he : effective (lex a) = e.toks) : e.isOr = false := by
  have hl : effective (lex a) = [.leaf a] := by
    rw [lex_name' ha]; exact effective_self (Expr.leaf a).sym_ne
  rw [hl] at he
  cases e with
  | or l r =>
    have : Tok.or ∈ [Tok.leaf a] := by rw [he]; simp [Expr.toks]
    simp at this
  | _ => rfl

theorem name_clean {a : Bytes} (ha : isName a = true) : CleanText a := by
  cases a with
  | nil => intro b hb; cases hb
  | cons c w =>
    simp only [isName, Bool.and_eq_true, List.all_eq_true] at ha
    intro b hb
    by_contra hd
    have := dirty_byte b hd
    rcases List.mem_cons.mp hb with rfl | hb
    · rw [ha.1.1] at this; exact absurd this.2.2.2.2.1 (by decide)
    · rw [ha.1.2 b hb] at this; exact absurd this.1 (by decide)

theorem clean_append {a b : Bytes} (ha : CleanText a) (hb : CleanText b) : CleanText (a ++ b) := by
  intro c hc
  rcases List.mem_append.mp hc with h | h
  · exact ha c h
  · exact hb c h

theorem gate_clean (ty : Gate) : CleanText (gateString ty) := by
  have : ∀ ty ∈ [Gate.and, .or, .threshold, .other], ∀ b ∈ gateString ty, b ≠ 0 ∧ b < 128 := by decide
  exact this ty (by cases ty <;> simp)

/-- **Any number of additions.** Names added one after the other with `and` and `or`, in any order and number, to any
accepted policy text without NUL and non-ASCII bytes: every call returns a policy, and the last one is satisfied exactly
as the additions say, each conjunct narrowing and each disjunct widening all that was there before it. -/
theorem C156_sequence (gs : List (Gate × Bytes)) : ∀ (s : Bytes) (p : Policy) (t : TNode), createPolicyTree mk s = .ok (some p) →
    p.root = some t → CleanText s → (∀ g ∈ gs, (g.1 = .and ∨ g.1 = .or) ∧ isName g.2 = true ∧ PlainOk g.2) →
    ∃ p' t', addEach mk gs p = .ok (some p') ∧ p'.root = some t' ∧ ∀ A, sat A t' = true ↔ Edited A gs (sat A t = true) := by
  induction gs with
  | nil => intro s p t _ ht _ _; exact ⟨p, t, rfl, ht, fun A => Iff.rfl⟩
  | cons g gs ih =>
    intro s p t h ht hs hg
    obtain ⟨ty, a⟩ := g
    obtain ⟨hty, ha, ha'⟩ := hg (ty, a) (List.mem_cons_self ..)
    obtain ⟨q, u, hq, hu, hsu⟩ := name_policy (mk := mk) ha ha'
    obtain ⟨p', t', er, h1, h2, h3, h4, h5, h6, h7, h8⟩ := added h ht hs hq hu ty hty
    have hclean : CleanText (b!"(" ++ s ++ b!")" ++ gateString ty ++ a) := by
      refine clean_append (clean_append (clean_append (clean_append ?_ hs) ?_) (gate_clean ty)) (name_clean ha)
      · intro b hb; simp only [List.mem_singleton] at hb; subst hb; decide
      · intro b hb; simp only [List.mem_singleton] at hb; subst hb; decide
    obtain ⟨p2, t2, k1, k2, k3⟩ := ih _ p' t' h4 h2 hclean (fun g hg' => hg g (List.mem_cons_of_mem _ hg'))
    refine ⟨p2, t2, by simp only [addEach]; rw [h1]; exact k1, k2, fun A => ?_⟩
    rw [k3 A]
    rcases hty with rfl | rfl
    · have e1 : (sat A t' = true) = (sat A t = true ∧ a ∈ A) := by
        refine propext ?_
        have hal := alts_single (name_noOr ha er h5)
        rw [h8 A, if_pos rfl]
        constructor
        · intro hh
          rcases hh er [] hal with ⟨x1, x2⟩ | ⟨y, hy, _⟩
          · exact ⟨x1, (hsu A).mp ((h7 A).mp x2)⟩
          · cases hy
        · rintro ⟨x1, x2⟩ x xs hx
          rw [hal] at hx; cases hx
          exact Or.inl ⟨x1, (h7 A).mpr ((hsu A).mpr x2)⟩
      rw [e1]; rfl
    · have e1 : (sat A t' = true) = (sat A t = true ∨ a ∈ A) := by
        refine propext ?_
        rw [h8 A, if_neg (by decide), hsu A]
      rw [e1]; rfl

/-- Two additions to the policy `x`. -/
example : ∃ p t, createPolicyTree mk b!"x" = .ok (some p) ∧ p.root = some t ∧ CleanText b!"x" ∧
    (∀ g ∈ [(Gate.and, b!"role:admin"), (.or, b!"root")], (g.1 = .and ∨ g.1 = .or) ∧ isName g.2 = true ∧ PlainOk g.2) ∧
    Edited [b!"root"] [(Gate.and, b!"role:admin"), (.or, b!"root")] (sat [b!"root"] t = true) := by
  obtain ⟨q, u, hq, hu, hs⟩ := name_policy (mk := mk) (a := b!"x") (by decide) ⟨TextEx.nameOk (by decide), by decide⟩
  refine ⟨q, u, hq, hu, by unfold CleanText; decide, ?_, Or.inr (by decide)⟩
  intro g hg
  simp only [List.mem_cons, List.not_mem_nil, or_false] at hg
  rcases hg with rfl | rfl
  · exact ⟨Or.inl rfl, by decide, TextEx.nameOk (by decide), by decide⟩
  · exact ⟨Or.inr rfl, by decide, TextEx.nameOk (by decide), by decide⟩

/-- Both sides of the exact condition occur: `a` followed by a NUL is accepted and cannot be extended, `a` can. -/
example : ¬ CleanText (b!"a" ++ [0]) ∧ CleanText b!"a" ∧
    (∃ p, createPolicyTree mk (b!"a" ++ [0]) = .ok (some p)) ∧ ∃ p, createPolicyTree mk b!"a" = .ok (some p) := by
  obtain ⟨q, u, hq, hu, hs⟩ := name_policy (mk := mk) (a := b!"a") (by decide) ⟨TextEx.nameOk (by decide), by decide⟩
  exact ⟨by unfold CleanText; decide, by unfold CleanText; decide, ⟨_, C15_nul_hides_the_rest_violated _ [] q hq⟩, q, hq⟩

/-- The two alternatives of `x or y`. -/
example : (Expr.or (.leaf b!"x") (.leaf b!"y")).alts = [.leaf b!"x", .leaf b!"y"] ∧
    effective (lex b!"x or y") = (Expr.or (.leaf b!"x") (.leaf b!"y")).toks := ⟨rfl, by decide +kernel⟩

end Abe
