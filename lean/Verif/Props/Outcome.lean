import Verif.Proof.Outcome
import Verif.Props.Parser

set_option linter.unusedSimpArgs false
set_option linter.unusedSectionVars false
set_option autoImplicit false

/-! C146: the outcome of reading any text. -/

namespace Abe
open TextEx

variable {mk : Mktime}

/-- Which conditions are undefined, by their numbers. -/
theorem C146_undefined (n m : UInteger) :
    ((NumCond.lt n).Undefined ↔ n.val.toNat = 0) ∧ ((NumCond.gt n).Undefined ↔ n.val.toNat = 2 ^ 32 - 1) ∧
    ((NumCond.le n).Undefined ↔ n.val.toNat = 2 ^ 32 - 1) ∧ ((NumCond.ge n).Undefined ↔ n.val.toNat = 0) ∧
    ¬ (NumCond.eq n).Undefined ∧
    ((NumCond.inOpen n m).Undefined ↔ n.val.toNat = 2 ^ 32 - 1 ∨ m.val.toNat = 0) ∧
    ((NumCond.inClosed n m).Undefined ↔ n.val.toNat = 0 ∨ m.val.toNat = 2 ^ 32 - 1) := by
  simp only [undefined_iff]
  exact ⟨Iff.rfl, Iff.rfl, Iff.rfl, Iff.rfl, id, Iff.rfl, Iff.rfl⟩

/-- The text of a formula is accepted exactly if none of its conditions is undefined, and has undefined
behaviour exactly if one is. There is no third outcome. -/
theorem C146_formula (s : Bytes) (e : Expr) (hc : e.canon = true) (hv : e.valid = true) (he : effective (lex s) = e.toks) :
    ((∃ p, createPolicyTree mk s = .ok (some p)) ↔ ∀ c ∈ e.conds, ¬ (c.cond mk).Undefined) ∧
    (createPolicyTree mk s = .ub ↔ ∃ c ∈ e.conds, (c.cond mk).Undefined) := by
  rcases createPolicyTree_total (mk := mk) hc hv he with ⟨⟨c, hc, hu⟩, h⟩ | ⟨hu, p, h⟩
  · refine ⟨⟨?_, fun h' => absurd hu (h' c hc)⟩, ⟨fun _ => ⟨c, hc, hu⟩, fun _ => h⟩⟩
    rintro ⟨p, h'⟩
    rw [h] at h'; cases h'
  · refine ⟨⟨fun _ => hu, fun _ => ⟨p, h⟩⟩, ⟨?_, ?_⟩⟩
    · intro h'; rw [h] at h'; cases h'
    · rintro ⟨c, hc, h'⟩; exact absurd h' (hu c hc)

/-- A calendar in which January 1 of 1970 is the start of the count: `t < January 1, 1970` is undefined, and
`t > January 1, 1970` is not. -/
example : let mk0 : Mktime := fun tm => ((tm.year - 70) * 31536000 + (tm.mday - 1) * 86400, tm)
    let e := fun op => Expr.cond (.date op b!"t" b!"January" (.flex 1) (.flex 1970))
    createPolicyTree mk0 b!"t < January 1, 1970" = .ub ∧ ∃ p, createPolicyTree mk0 b!"t > January 1, 1970" = .ok (some p) := by
  intro mk0 e
  refine ⟨((C146_formula _ (e .lt) rfl rfl (by decide +kernel)).2).mpr ⟨_, List.mem_singleton.mpr rfl, ?_⟩,
    ((C146_formula _ (e .gt) rfl rfl (by decide +kernel)).1).mpr ?_⟩
  · exact (C146_undefined _ ⟨0, 32⟩).1.mpr (by decide +kernel)
  · intro c hc
    obtain rfl := List.mem_singleton.mp hc
    exact fun h => absurd ((C146_undefined _ ⟨0, 32⟩).2.1.mp h) (by decide +kernel)

/-- Accepted texts of policies, without any condition on the text. -/
theorem C146_accepted_iff (s : Bytes) :
    (∃ p, createPolicyTree mk s = .ok (some p)) ↔
      ∃ e : Expr, e.valid = true ∧ e.canon = true ∧ effective (lex s) = e.toks ∧ ∀ c ∈ e.conds, ¬ (c.cond mk).Undefined := by
  constructor
  · rintro ⟨p, h⟩
    obtain ⟨e, hv, hc, he⟩ := accepted h
    exact ⟨e, hv, hc, he, (C146_formula s e hc hv he).1.mp ⟨p, h⟩⟩
  · rintro ⟨e, hv, hc, he, hu⟩
    exact (C146_formula s e hc hv he).1.mpr hu

/-- Only dates can be undefined: numbers that were written out never are. -/
theorem C146_only_dates (s : Bytes) (c : CondSyn) (hv : c.valid = true) (hc : c.toks <:+: lex s) (hu : (c.cond mk).Undefined) :
    Tok.chr 44 ∈ c.toks := by
  by_contra h44
  have hn := CondSyn.numsOk (mk := mk) hv (fun t ht => tokOk_of_lex (hc.subset ht)) (fun h => h44 h.1)
  obtain ⟨t, d', h⟩ := compile_ok { input := s } c.base (c.cond mk) hn
  rcases compile_total { input := s } c.base (c.cond mk) (CondSyn.widths hv) with h' | h'
  · rw [h'.2] at h; cases h
  · exact h'.1 hu

/-- A text that is not a formula gives the null pointer; only if it contains a date whose day number is 0 or
2^32 - 1 the behaviour may be undefined instead. Nothing is ever thrown, and the program is not ended. -/
theorem C146_other (s : Bytes) (h : ¬ ∃ e : Expr, e.valid = true ∧ e.canon = true ∧ effective (lex s) = e.toks) :
    createPolicyTree mk s = .ok none ∨
    (createPolicyTree mk s = .ub ∧ ∃ c : CondSyn, c.valid = true ∧ c.toks <:+: lex s ∧ c.BadDate mk) :=
  (createPolicyTree_cases mk s).resolve_left h

/-- A text that is no formula. -/
example : ¬ ∃ e : Expr, e.valid = true ∧ e.canon = true ∧ effective (lex b!"a and and b") = e.toks := by
  rintro ⟨e, hv, _, he⟩
  have h44 : Tok.chr 44 ∉ lex b!"a and and b" := by decide +kernel
  have hnb : NoBadDates mk b!"a and and b" := fun c _ hi hb => h44 (hi.subset hb.1)
  obtain ⟨p, h⟩ := (C13_accepts_iff_derivable (mk := mk) _ hnb).mpr ⟨e, hv, he⟩
  have h' : createPolicyTree mk b!"a and and b" = .ok none := rfl
  rw [h'] at h
  cases h

/-- Reading a list of attributes always returns: an object exactly if the tokens are a list, and otherwise the
null pointer. No date matters. -/
theorem C146_list (s : Bytes) :
    ((∃ al, createAttributeList mk s = .ok (some al)) ↔
      ∃ a : AExpr, a.valid = true ∧ a.canon = true ∧ effective (lex s) = a.toks) ∧
    (createAttributeList mk s = .ok none ↔
      ¬ ∃ a : AExpr, a.valid = true ∧ a.canon = true ∧ effective (lex s) = a.toks) := by
  rcases createAttributeList_cases mk s with ⟨a, hv, hc, he⟩ | h | ⟨h, _⟩
  · obtain ⟨al, h, _⟩ := createAttributeList_ok mk hc hv he
    refine ⟨⟨fun _ => ⟨a, hv, hc, he⟩, fun _ => ⟨al, h⟩⟩, ⟨fun h' => ?_, fun h' => absurd ⟨a, hv, hc, he⟩ h'⟩⟩
    rw [h] at h'; cases h'
  · have hno : ¬ ∃ a : AExpr, a.valid = true ∧ a.canon = true ∧ effective (lex s) = a.toks := by
      rintro ⟨a, hv, hc, he⟩
      obtain ⟨al, h', _⟩ := createAttributeList_ok mk hc hv he
      rw [h] at h'; cases h'
    refine ⟨⟨?_, fun h' => absurd h' hno⟩, ⟨fun _ => hno, fun _ => h⟩⟩
    rintro ⟨al, h'⟩
    rw [h] at h'; cases h'
  · exact absurd h (createAttributeList_returns mk s)

/-- The list with the date of the example above is read, whatever the calendar says. -/
example : ∃ al, createAttributeList mk b!"|t = January 1, 1970|" = .ok (some al) :=
  (C146_list _).1.mpr ⟨.pre (.post (.item (.date b!"t" b!"January" (.flex 1) (.flex 1970)))), rfl, by decide, by decide +kernel⟩

/-- Of the texts that the grammar derives, exactly those that end with two bars are rejected. -/
theorem C146_bars (s : Bytes) (a : AExpr) (hv : a.valid = true) (he : effective (lex s) = a.toks) :
    ((∃ al, createAttributeList mk s = .ok (some al)) ↔ ¬ [Tok.chr 124, .chr 124] <:+ a.toks) ∧
    (createAttributeList mk s = .ok none ↔ [Tok.chr 124, .chr 124] <:+ a.toks) := by
  have key : (∃ c : AExpr, c.valid = true ∧ c.canon = true ∧ effective (lex s) = c.toks) ↔
      ¬ [Tok.chr 124, .chr 124] <:+ a.toks := by
    constructor
    · rintro ⟨c, _, hc, hce⟩
      rw [← he, hce]
      exact c.canon_bars hc
    · intro h
      obtain ⟨c, h1, h2, h3⟩ := a.canon_of_bars hv h
      exact ⟨c, h2, h1, by rw [he, h3]⟩
  exact ⟨(C146_list s).1.trans key, (C146_list s).2.trans ((not_congr key).trans not_not)⟩

/-- `|a||b|` is accepted and `a||` is not. -/
example : (∃ al, createAttributeList mk b!"|a||b|" = .ok (some al)) ∧ createAttributeList mk b!"a||" = .ok none :=
  ⟨(C146_bars b!"|a||b|" (.pre (.cat (.item (.leaf b!"a")) (.pre (.post (.item (.leaf b!"b")))))) rfl (by decide +kernel)).1.mpr (by decide),
    (C146_bars b!"a||" (.post (.post (.item (.leaf b!"a")))) rfl (by decide +kernel)).2.mpr (by decide)⟩

end Abe
