import Verif.Proof.LabelCount
import Verif.Props.Lists
/-!
# Exactly which policies lose rows, can be copied, and which names match themselves (C143)
-/
set_option linter.unusedSimpArgs false
set_option linter.unusedSectionVars false
set_option autoImplicit false
namespace Abe
variable {mk : Mktime}
open TextEx LsssEx

/-! ### Labels -/

/-- Exactly when two rows of a policy get the same label: some attribute `a` occurs at least twice, and the text
`a%i`, with `i` below the number of its occurrences, occurs as an attribute exactly once. -/
theorem C143_labels (s : Bytes) (e : Expr) (h : PolicyText mk s e) :
    ∃ (p : Policy) (t : TNode), createPolicyTree mk s = .ok (some p) ∧ p.root = some t ∧
      (((leaves t).map (uniqueLabel (if p.hasDup then p.dupCount else []))).Nodup ↔
        ∀ a i, 2 ≤ ((leaves t).map Leaf.label).count a → i < ((leaves t).map Leaf.label).count a →
          ((leaves t).map Leaf.label).count (a ++ b!"%" ++ natDec i) ≠ 1) := by
  obtain ⟨p, t, d', h1, h2, _⟩ := parsed h
  exact ⟨p, t, h1, h2, parsed_labels h h1 h2⟩

theorem pctText : PolicyText mk b!"a or a or a%1" (.or (.or (.leaf b!"a") (.leaf b!"a")) (.leaf b!"a%1")) := by
  refine ⟨by decide +kernel, rfl, rfl, by simp [Expr.DatesOk, Expr.conds], ?_, by simp [Expr.conds]⟩
  intro x hx
  simp [Expr.plain] at hx
  rcases hx with rfl | rfl <;> exact ⟨nameOk (by decide), by decide⟩

/-- `a or a or a%1` is a text with a clash, `a or a%1 or a%1` one with `%` in a name and without a clash. -/
example : PolicyText mk b!"a or a or a%1" (.or (.or (.leaf b!"a") (.leaf b!"a")) (.leaf b!"a%1")) ∧
    [b!"a", b!"a", b!"a%1"].count (b!"a" ++ b!"%" ++ natDec 1) = 1 ∧
    [b!"a", b!"a%1", b!"a%1"].count b!"a" = 1 := ⟨pctText, by decide +kernel, by decide⟩

/-! ### Rows -/

/-- Sharing leaves as many rows as there are different labels. They are as many as the leaves exactly under the
condition of `C143_labels`. -/
theorem C143_rows {F : Type} [Field F] [DecidableEq F] (s : Bytes) (e : Expr) (h : PolicyText mk s e) (secret : F)
    (tape : Nat → F) :
    ∃ (p : Policy) (t : TNode) (o : LSSS F) (n : Nat), createPolicyTree mk s = .ok (some p) ∧ p.root = some t ∧
      shareSecret false {} (some p) secret tape = .ok (o, n) ∧
      o.results.length = ((leaves t).map (uniqueLabel (if p.hasDup then p.dupCount else []))).toFinset.card ∧
      (o.results.length = (leaves t).length ↔
        ∀ a i, 2 ≤ ((leaves t).map Leaf.label).count a → i < ((leaves t).map Leaf.label).count a →
          ((leaves t).map Leaf.label).count (a ++ b!"%" ++ natDec i) ≠ 1) := by
  obtain ⟨p, t, d', h1, h2, _, h4, _, _, h7, _⟩ := parsed h
  have hi : IdxOkT (effCount ({} : LSSS F) p) t := fun l hl _ => h7 l hl
  have hlen : (SMap.addRows [] ((emit tape t secret 0).map (toRow (effCount ({} : LSSS F) p)))).length =
      ((leaves t).map (uniqueLabel (if p.hasDup then p.dupCount else []))).toFinset.card := by
    rw [addRows_length, fst_toRow, emit_fst]
    exact congrArg Finset.card (List.toFinset_eq_of_perm _ _ ((rleaves_perm t).map _))
  refine ⟨p, t, _, _, h1, h2, shareSecret_ok {} p t secret tape h2 h4.pos hi, hlen, ?_⟩
  rw [← parsed_labels h h1 h2]
  show (SMap.addRows [] ((emit tape t secret 0).map (toRow (effCount ({} : LSSS F) p)))).length = _ ↔ _
  rw [hlen]
  constructor
  · intro he
    refine Multiset.coe_nodup.mp (Multiset.dedup_card_eq_card_iff_nodup.mp ?_)
    simpa [List.toFinset, Multiset.toFinset] using he
  · intro hn
    rw [List.toFinset_card_of_nodup hn, List.length_map]

example : PolicyText mk b!"a or a or a%1" (.or (.or (.leaf b!"a") (.leaf b!"a")) (.leaf b!"a%1")) := pctText

/-! ### Copies -/

/-- A copy of a policy shares secrets like the original exactly when no attribute occurs twice; otherwise sharing
under the copy reads an index that was never written. A policy assigned to a new one always shares, with one row
per different attribute. -/
theorem C143_copies {F : Type} [Field F] [DecidableEq F] (s : Bytes) (e : Expr) (h : PolicyText mk s e) (secret : F)
    (tape : Nat → F) :
    ∃ (p : Policy) (t : TNode), createPolicyTree mk s = .ok (some p) ∧ p.root = some t ∧
      (shareSecret false {} (some p.copy) secret tape = shareSecret false ({} : LSSS F) (some p) secret tape ↔
        ((leaves t).map Leaf.label).Nodup) ∧
      (¬ ((leaves t).map Leaf.label).Nodup → shareSecret false ({} : LSSS F) (some p.copy) secret tape = .ub) ∧
      ∃ (q : Policy) (o : LSSS F) (n : Nat), Policy.assign {} p = .ok q ∧
        shareSecret false {} (some q) secret tape = .ok (o, n) ∧
        o.results.length = ((leaves t).map Leaf.label).toFinset.card := by
  obtain ⟨p, t, d', h1, h2, _, h4, _, _, h7, _⟩ := parsed h
  obtain ⟨hd1, hd2⟩ := parsed_dup h h1 h2
  have hlab : ∀ t : TNode, (emit tape (copyTree t) secret 0).map Prod.fst =
      (rleaves t).map fun l => { l with idx := none } := by
    intro t
    rw [(emit_copy tape t).2, List.map_map, ← emit_fst tape t secret 0, List.map_map]
    rfl
  have hub : ¬ ((leaves t).map Leaf.label).Nodup → shareSecret false ({} : LSSS F) (some p.copy) secret tape = .ub := by
    intro hn
    have hdup := hd2.mpr hn
    refine shareSecret_ub {} p.copy (copyTree t) secret tape (by simp [Policy.copy, h2]) ((PosGates_copy t).2 h4.pos) ?_
    obtain ⟨c, hc⟩ : ∃ c, 2 ≤ ((leaves t).map Leaf.label).count c := by
      by_contra hcon
      refine hn (List.nodup_iff_count_le_one.mpr fun c => ?_)
      by_contra hc
      exact hcon ⟨c, by omega⟩
    obtain ⟨l, hl, hlc⟩ := List.mem_map.mp (List.count_pos_iff.mp (by omega : 0 < ((leaves t).map Leaf.label).count c))
    refine ⟨{ l with idx := none }, ?_, ?_, rfl⟩
    · refine (rleaves_perm (copyTree t)).mem_iff.mp ?_
      rw [← emit_fst tape (copyTree t) secret 0, hlab]
      exact List.mem_map.mpr ⟨l, (rleaves_perm t).mem_iff.mpr hl, rfl⟩
    · have h3 := (hd1 c).mpr hc
      rw [hdup] at h3
      have e1 : effCount ({} : LSSS F) p.copy = p.dupCount := by simp [effCount, Policy.copy, hdup]
      rw [e1]
      show (SMap.find l.label p.dupCount).isSome = true
      rw [hlc]
      exact h3
  have hq : Policy.assign {} p = .ok { ({} : Policy) with root := some (copyTree t) } := by simp [Policy.assign, h2]
  refine ⟨p, t, h1, h2, ⟨fun heq => ?_, fun hn => ?_⟩, hub, _, _, _, hq,
    shareSecret_ok {} _ (copyTree t) secret tape rfl ((PosGates_copy t).2 h4.pos) (by
      have e1 : effCount ({} : LSSS F) { ({} : Policy) with root := some (copyTree t) } = [] := rfl
      rw [e1]; exact idxOk_nil _), ?_⟩
  · by_contra hn
    rw [hub hn, shareSecret_ok {} p t secret tape h2 h4.pos (fun l hl _ => h7 l hl)] at heq
    cases heq
  · have hdup : p.hasDup = false := by
      cases hh : p.hasDup with
      | false => rfl
      | true => exact absurd hn (hd2.mp hh)
    exact (C12_copy_shares_alike_partial p {} t secret tape h2 h4.pos hdup rfl).1
  · rw [addRows_length, fst_toRow, hlab]
    refine congrArg Finset.card ?_
    ext x
    simp only [List.mem_toFinset, List.map_map, List.mem_map]
    constructor
    · rintro ⟨l, hl, rfl⟩
      exact ⟨l, (rleaves_perm t).mem_iff.mp hl, rfl⟩
    · rintro ⟨l, hl, rfl⟩
      exact ⟨l, (rleaves_perm t).mem_iff.mpr hl, rfl⟩

/-- A text with a repeated attribute and one without. -/
example : PolicyText mk b!"a or a or a%1" (.or (.or (.leaf b!"a") (.leaf b!"a")) (.leaf b!"a%1")) ∧
    PolicyText mk b!"a < 7 and (b or dept:x)" e2 := ⟨pctText, text2⟩

/-! ### Names -/

/-- Both parsers accept every name. The list holding just that name satisfies the policy consisting of it exactly
when no part between colons is empty, or the name is one part followed by one colon. -/
theorem C143_names (S : StdSort) (s : Bytes) (hs : isName s = true) :
    ∃ (p : Policy) (t : TNode) (al : AttrList) (r : Bool) (k : Int) (t' : TNode),
      createPolicyTree mk s = .ok (some p) ∧ p.root = some t ∧ createAttributeList mk (124 :: s) = .ok (some al) ∧
      checkIfSatisfied S t al.attrs = .ok ((r, k), t') ∧
      (r = true ↔ PlainOk s ∨ ∃ q, s = q ++ [58] ∧ (58 : UInt8) ∉ q) := by
  obtain ⟨pre, a, h1, h2⟩ := name_label hs
  obtain ⟨al, g1, g2, _⟩ := createAttributeList_ok mk (s := 124 :: s) (a := .pre (.item (.leaf s))) rfl rfl (by
    rw [lex_bar, lex_name' hs]
    exact effective_self (AExpr.sym_ne (.pre (.item (.leaf s)))))
  have hev : ∃ d', leafNode { input := s } s = .ok (.leaf {} pre a (some 0), d') := by
    unfold leafNode
    rw [h1]
    simp only [Res.ok_bind, SMap.find]
    exact ⟨_, rfl⟩
  obtain ⟨d', hev⟩ := hev
  have h3 := policy_of_eval (mk := mk) (s := s) (e := .leaf s) (t := .leaf {} pre a (some 0)) (d' := d') rfl rfl
    (by rw [lex_name' hs]; exact effective_self (Expr.sym_ne (.leaf s))) hev
  obtain ⟨k, t', hc, _⟩ := C03_check_decides_formula S (.leaf {} pre a (some 0)) al.attrs trivial trivial
  refine ⟨_, _, al, _, k, t', h3, rfl, g1, hc, ?_⟩
  have hs0 : s ≠ [] := by rintro rfl; simp [isName] at hs
  have e : al.attrs = [s] := by rw [g2]; rfl
  rw [plainOk_iff hs0, ← h2, e]
  simp [sat, Leaf.label]

example : isName b!"dept:hr" = true ∧ isName b!"dept:" = true ∧ isName b!"a::b" = true ∧ isName b!"a:b:" = true := by decide

end Abe
