import Verif.Props.Parser
/-!
# Attribute lists (C27–C29, C74, C75)
-/
set_option linter.unusedSimpArgs false
set_option linter.unusedSectionVars false
set_option autoImplicit false
namespace Abe
variable {mk : Mktime}
open TextEx LsssEx

/-! ### C27 -/

/-- A list text that does not contradict itself satisfies `name == n` exactly when it assigns the value of `n`,
with the width of `n`, to `name`. -/
theorem C27_one_value_partial (S : StdSort) (s l name : Bytes) (n : NumSyn) (a : AExpr)
    (hs : PolicyText mk s (.cond (.cmp .eq name n))) (hl : ListText mk l a) :
    ∃ (p : Policy) (t : TNode) (al : AttrList) (r : Bool) (k : Int) (t' : TNode),
      createPolicyTree mk s = .ok (some p) ∧ p.root = some t ∧ createAttributeList mk l = .ok (some al) ∧
      checkIfSatisfied S t al.attrs = .ok ((r, k), t') ∧
      (r = true ↔ itemsNum mk a.items name = some (n.val.val, n.val.bits)) := by
  obtain ⟨p, t, al, r, k, t', h1, h2, h3, h4, h5⟩ := C13_meaning S s l _ a hs hl
  refine ⟨p, t, al, r, k, t', h1, h2, h3, h4, h5.trans ?_⟩
  simp only [Expr.trueFor, Expr.holds, CondSyn.base, CondSyn.cond, CmpOp.cond, NumCond.nums, NumCond.holds,
    List.mem_singleton, forall_eq]
  constructor
  · rintro ⟨v, w, h1, h2, h3⟩
    rw [h1, h2, UInt32.toNat_inj.mp h3]
  · intro h
    exact ⟨_, _, h, rfl, rfl⟩

example : PolicyText mk b!"a==5" (.cond (.cmp .eq b!"a" (.flex 5))) ∧ ListText mk b!"|a = 5|b" a2 := by
  refine ⟨⟨by decide +kernel, by decide, by decide, ?_, by simp [Expr.plain], ?_⟩, list2⟩
  · intro c hc
    simp [Expr.conds] at hc
    subst hc
    rintro ⟨h, _⟩
    simp [CondSyn.toks, NumSyn.toks, CmpOp.tok] at h
  · intro c hc
    simp [Expr.conds] at hc
    subst hc
    exact nameOk (by decide)

/-- The code violates C27: a text that sets a number twice is accepted, and the list then satisfies equality
with both values and with values that were never mentioned. -/
theorem C27_two_values_violated : ∃ al, createAttributeList mk b!"a=5#4|a=6#4" = .ok (some al) ∧
    ∀ v ∈ [4, 5, 6, 7], ∃ t d', eqPolicy {} b!"a" ⟨v, 4⟩ = .ok (t, d') ∧ sat al.attrs t = true := by
  obtain ⟨al, h1, h2, _⟩ := createAttributeList_ok mk (s := b!"a=5#4|a=6#4")
    (a := .cat (.item (.num b!"a" (.exp 5 4))) (.item (.num b!"a" (.exp 6 4)))) (by decide) (by decide) (by decide +kernel)
  refine ⟨al, h1, ?_⟩
  have h3 : al.attrs = assignStmt b!"a" ⟨5, 4⟩ ++ assignStmt b!"a" ⟨6, 4⟩ := by rw [h2]; rfl
  rw [h3]
  intro v hv
  have key : ∀ v ∈ [(4 : UInt32), 5, 6, 7], (match eqPolicy {} b!"a" ⟨v, 4⟩ with
      | .ok r => sat (assignStmt b!"a" ⟨5, 4⟩ ++ assignStmt b!"a" ⟨6, 4⟩) r.1
      | _ => false) = true := by decide +kernel
  have hk := key v hv
  cases he : eqPolicy {} b!"a" ⟨v, 4⟩ with
  | ok r => rw [he] at hk; exact ⟨r.1, r.2, rfl, hk⟩
  | throw e => rw [he] at hk; cases hk
  | ub => rw [he] at hk; cases hk
  | abort => rw [he] at hk; cases hk

/-! ### C28 -/

/-- An attribute without empty parts satisfies the policy that consists of it. -/
theorem C28_self_match_partial (S : StdSort) (s : Bytes) (hs : isName s = true) (hp : PlainOk s) :
    ∃ (p : Policy) (t : TNode) (al : AttrList) (k : Int) (t' : TNode),
      createPolicyTree mk s = .ok (some p) ∧ p.root = some t ∧ createAttributeList mk (124 :: s) = .ok (some al) ∧
      checkIfSatisfied S t al.attrs = .ok ((true, k), t') := by
  have h1 : PolicyText mk s (.leaf s) := by
    refine ⟨?_, rfl, rfl, by simp [Expr.DatesOk, Expr.conds], by simp [Expr.plain, hp], by simp [Expr.conds]⟩
    rw [lex_name' hs]
    exact effective_self (Expr.sym_ne (.leaf s))
  have h2 : ListText mk (124 :: s) (.pre (.item (.leaf s))) := by
    refine ⟨?_, rfl, rfl, by simp [ItemsOk, AExpr.items, Item.value]⟩
    rw [lex_bar, lex_name' hs]
    exact effective_self (AExpr.sym_ne (.pre (.item (.leaf s))))
  obtain ⟨p, t, al, r, k, t', h3, h4, h5, h6, h7⟩ := C13_meaning S s _ _ _ h1 h2
  have : r = true := h7.mpr (by simp [Expr.trueFor, Expr.holds, AExpr.items])
  subst this
  exact ⟨p, t, al, k, t', h3, h4, h5, h6⟩

example : isName b!"dept:hr-2" = true ∧ PlainOk b!"dept:hr-2" := ⟨by decide, nameOk (by decide), by decide⟩

/-- The code violates C28: both parsers accept `a:b:`, but the policy looks for `a:b` and the list holds `a:b:`. -/
theorem C28_colon_violated (S : StdSort) : isName b!"a:b:" = true ∧ ∃ (p : Policy) (t : TNode) (al : AttrList) (k : Int) (t' : TNode),
    createPolicyTree mk b!"a:b:" = .ok (some p) ∧ p.root = some t ∧ createAttributeList mk b!"|a:b:" = .ok (some al) ∧
    checkIfSatisfied S t al.attrs = .ok ((false, k), t') := by
  obtain ⟨al, h1, h2, _⟩ := createAttributeList_ok mk (s := b!"|a:b:") (a := .pre (.item (.leaf b!"a:b:"))) rfl rfl (by decide +kernel)
  have h3 := policy_of_eval (mk := mk) (s := b!"a:b:") (e := .leaf b!"a:b:") (t := .leaf {} b!"a" b!"b" (some 0))
    (d' := { attrCount := [(b!"a:b:", 1)], attrPrefix := [b!"a"], input := b!"a:b:" }) rfl rfl (by decide +kernel) rfl
  obtain ⟨k, t', hc, _⟩ := C03_check_decides_formula S (.leaf {} b!"a" b!"b" (some 0)) al.attrs trivial trivial
  have hs : sat al.attrs (.leaf {} b!"a" b!"b" (some 0)) = false := by
    rw [h2]
    have e : contrib (Item.strings mk) [] (AExpr.items (.pre (.item (.leaf b!"a:b:")))) = [b!"a:b:"] := rfl
    rw [e]; decide
  rw [hs] at hc
  exact ⟨by decide, _, _, al, k, t', h3, rfl, h1, hc⟩

/-! ### C29 -/

/-- Parsing the compact string of any parsed attribute list gives the same attributes (as a multiset: plain ones
come first), the same original texts of the numeric ones and the same compact string. -/
theorem C29_compact_round_trip (s : Bytes) (al : AttrList) (h : createAttributeList mk s = .ok (some al)) :
    ∃ al', createAttributeList mk al.compact = .ok (some al') ∧ al'.attrs.Perm al.attrs ∧ al'.orig = al.orig ∧
      al'.compact = al.compact := by
  obtain ⟨a, hv, hc, he⟩ := accepted_list h
  obtain ⟨al2, h1, h2, h3, ht⟩ := createAttributeList_ok mk hc hv he
  rw [h] at h1
  simp only [Res.ok.injEq, Option.some.injEq] at h1
  subst h1
  exact compact_reparse a.items_ne (fun i hi => ⟨a.items_valid hv i hi, fun t htt => ht t (a.items_toks i hi t htt)⟩) h2 h3

/-- A list with a number, a date and a plain attribute is accepted, so the theorem applies to it. -/
example : ∃ al, createAttributeList mk b!"|lvl=3#4|p=March 3, 2021|x" = .ok (some al) ∧
    al.compact = b!"|x|lvl=3#4|p=March 3, 2021|" := by
  obtain ⟨al, h1, h2, h3, h4⟩ := createAttributeList_ok mk (s := b!"|lvl=3#4|p=March 3, 2021|x")
    (a := .pre (.cat (.item (.num b!"lvl" (.exp 3 4))) (.cat (.item (.date b!"p" b!"March" (.flex 3) (.flex 2021)))
      (.item (.leaf b!"x"))))) (by decide) (by decide) (by decide +kernel)
  refine ⟨al, h1, ?_⟩
  unfold AttrList.compact
  rw [h2, h3, contrib_kept, contrib_kept, compact_attrs, compact_orig]
  · decide +kernel
  · intro i hi
    refine ⟨AExpr.items_valid (.pre (.cat (.item (.num b!"lvl" (.exp 3 4))) (.cat (.item (.date b!"p" b!"March" (.flex 3) (.flex 2021)))
      (.item (.leaf b!"x"))))) (by decide) i (kept_sub _ _ i hi), fun t ht => h4 t (AExpr.items_toks _ i (kept_sub _ _ i hi) t ht)⟩

/-- For lists built with `addAttribute` the round trip fails: it takes any text as an attribute. The attribute
`a b` is stored and its compact string is rejected. -/
theorem C29_added_attribute_violated : ∃ al, AttrList.add mk {} b!"a b" = .ok al ∧ al.attrs = [b!"a b"] ∧
    createAttributeList mk al.compact = .ok none := ⟨{ attrs := [b!"a b"] }, rfl, rfl, rfl⟩

/-! ### C74 -/

/-- The attribute-list parser accepts exactly the texts with a derivation in which lists group to the right. -/
theorem C74_accepts_iff_derivable_partial (s : Bytes) :
    (∃ al, createAttributeList mk s = .ok (some al)) ↔
      ∃ a : AExpr, a.valid = true ∧ a.canon = true ∧ effective (lex s) = a.toks := by
  constructor
  · rintro ⟨al, h⟩; exact accepted_list h
  · rintro ⟨a, hv, hc, he⟩
    obtain ⟨al, h, _⟩ := createAttributeList_ok mk hc hv he
    exact ⟨al, h⟩

/-- The list that is accepted asserts its plain attributes and the bits of its numbers, nothing else, unless
the text contradicts itself. -/
theorem C74_list_contents (s : Bytes) (a : AExpr) (h : ListText mk s a) :
    ∃ al, createAttributeList mk s = .ok (some al) ∧ ∀ x, x ∈ al.attrs ↔ ∃ i ∈ a.items, x ∈ i.strings mk := by
  obtain ⟨al, h1, h2, _⟩ := listed h
  exact ⟨al, h1, by rw [h2]; exact attrs_mem h.items⟩

example : ListText mk b!"|a = 5|b" a2 := list2

/-- The code violates C74: the grammar derives `a||` (a list may be followed by a bar, twice), the parser
rejects it. -/
theorem C74_double_bar_violated : (∃ a : AExpr, a.valid = true ∧ effective (lex b!"a||") = a.toks) ∧
    createAttributeList mk b!"a||" = .ok none :=
  ⟨⟨.post (.post (.item (.leaf b!"a"))), rfl, by decide +kernel⟩, rfl⟩

/-! ### C75 -/

theorem setDiff_length : ∀ (n : Nat) (x y : List Bytes), (setDiff n x y).length ≤ x.length
  | 0, _, _ => by simp [setDiff]
  | _ + 1, [], _ => by simp [setDiff]
  | n + 1, a :: as, [] => by simp [setDiff]
  | n + 1, a :: as, b :: bs => by
    simp only [setDiff]
    split
    · have := setDiff_length n as (b :: bs); simp; omega
    · split
      · exact setDiff_length n (a :: as) bs
      · have := setDiff_length n as bs; simp; omega

/-- The code violates C75: comparing with a non-empty list never answers "different". -/
theorem C75_always_equal_violated (x z : AttrList) (hx : x.attrs ≠ []) : x.isEqual z = .ok true := by
  unfold AttrList.isEqual
  have hl := setDiff_length (z.attrs.length + x.attrs.length) z.attrs x.attrs
  have hp : 0 < x.attrs.length := List.length_pos_iff.mpr hx
  simp only
  rw [List.getElem?_append_right (Nat.le_refl _)]
  simp only [Nat.sub_self]
  rw [List.getElem?_replicate, if_pos (by omega)]
  rfl

/-- `|a` and `|b` are reported equal; comparing two empty lists reads behind the end of the buffer. -/
theorem C75_witness_violated : AttrList.isEqual { attrs := [b!"a"] } { attrs := [b!"b"] } = .ok true ∧
    AttrList.isEqual {} {} = .ub ∧ AttrList.isEqual {} { attrs := [b!"b"] } = .ub := by decide +kernel

theorem setDiff_nil : ∀ (n : Nat) (x : List Bytes), x.length ≤ n → setDiff n x [] = x
  | 0, [], _ => rfl
  | 0, _ :: _, h => absurd h (by simp)
  | _ + 1, [], _ => rfl
  | _ + 1, _ :: _, _ => rfl

/-- The whole behaviour of `isEqual`: it answers "equal" if the list it is called on has an attribute, and is undefined otherwise; so
lists with the same attributes, at least one, are found equal. What is missing: lists that differ. -/
theorem C75_answer_partial (x z : AttrList) : x.isEqual z = if x.attrs = [] then .ub else .ok true := by
  split
  · rename_i h
    unfold AttrList.isEqual
    simp only [h, List.length_nil, Nat.add_zero, setDiff_nil _ z.attrs (Nat.le_refl _), Nat.sub_self, List.replicate_zero, List.append_nil,
      List.getElem?_eq_none (Nat.le_refl _)]
  · rename_i h
    exact C75_always_equal_violated x z h

end Abe
