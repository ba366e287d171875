import Verif.Spec.ZrExpr
import Verif.Props.Zr
/-!
# Expressions over `ZP` objects (C154)
-/
set_option linter.unusedSimpArgs false
set_option linter.unusedSectionVars false
set_option autoImplicit false
namespace Abe
namespace ZExpr
open Zr

variable {q : Nat} [Fact q.Prime]

/-- What is known of the result of an expression. -/
structure Result (q : Nat) [Fact q.Prime] (e : ZExpr) (r : Zr) : Prop where
  value : residue q r = e.value q
  isSet : r.isSet = e.ordered
  order : r.order = if e.ordered then (q : Int) else 0
  red : e.computed = true → e.ordered = true → 0 ≤ r.val ∧ r.val < q

theorem red_result {e : ZExpr} {r : Zr} (h : Red q r) (ho : e.ordered = true) (hv : residue q r = e.value q) : Result q e r :=
  ⟨hv, by rw [ho]; exact h.1, by rw [ho]; exact h.2.1, fun _ _ => ⟨h.2.2.1, h.2.2.2⟩⟩

theorem opOrder_q {e f : ZExpr} {x y : Zr} (hx : Result q e x) (hy : Result q f y) (h : e.ordered = true ∨ f.ordered = true) :
    opOrder x y = (q : Int) := by
  unfold opOrder
  rw [hx.isSet, hx.order, hy.order]
  cases he : e.ordered
  · rcases h with h | h
    · rw [he] at h; cases h
    · simp [h]
  · simp

theorem opOrder_none {e f : ZExpr} {x y : Zr} (hx : Result q e x) (hy : Result q f y) (h : ¬ (e.ordered = true ∨ f.ordered = true)) :
    opOrder x y = 0 := by
  have h1 : e.ordered = false := by cases he : e.ordered <;> simp_all
  have h2 : f.ordered = false := by cases he : f.ordered <;> simp_all
  unfold opOrder
  rw [hx.isSet, hx.order, hy.order, h1, h2]
  rfl

theorem bnMod_zero (a : Int) : bnMod a 0 = .ub := rfl
theorem bnExp_zero (a b : Int) : bnExp a b 0 = .ub := by unfold bnExp; simp
theorem bnModInv_zero (a : Int) : bnModInv a 0 = .ub := by unfold bnModInv; simp

theorem bnModInv_dvd {a : Int} (h : (a : ZMod q) = 0) : bnModInv a q = .ub := by
  unfold bnModInv
  refine if_neg fun hh => ?_
  have hd : (q : Int) ∣ a := (ZMod.intCast_zmod_eq_zero_iff_dvd a q).mp h
  have : Int.gcd a q = q := by
    rw [Int.gcd_comm]
    have := Int.gcd_eq_left (by omega) hd
    exact_mod_cast this
  rw [this] at hh
  exact (Fact.out : q.Prime).ne_one hh.2

theorem powU_ok {x : Zr} (n : Nat) (h : x.order = (q : Int)) :
    ∃ r, x.powU n = .ok r ∧ Red q r ∧ residue q r = residue q x ^ n := by
  have hq : (0 : Int) < q := qpos
  refine ⟨_, ?_, red_mk (x.val ^ n), ?_⟩
  · unfold Zr.powU bnExp; rw [h, if_pos ⟨hq, by omega⟩]; rfl
  · rw [residue_mk]; push_cast; rfl

theorem neg_ok {x : Zr} (hs : x.isSet = true) (h : x.order = (q : Int)) :
    ∃ r, x.neg = .ok r ∧ Red q r ∧ residue q r = - residue q x := by
  obtain ⟨v, o, s⟩ := x
  dsimp only at hs h
  subst hs h
  refine ⟨_, ?_, red_mk (-v), ?_⟩
  · unfold Zr.neg; dsimp only; rw [bnMod_q]; rfl
  · rw [residue_mk]; push_cast; rfl

theorem inv_ok {x : Zr} (hs : x.isSet = true) (h : x.order = (q : Int)) (hn : residue q x ≠ 0) :
    ∃ r, x.multInverse = .ok r ∧ Red q r ∧ residue q r = (residue q x)⁻¹ := by
  obtain ⟨v, o, s⟩ := x
  dsimp only at hs h
  subst hs h
  obtain ⟨i, hi, hi2⟩ := bnModInv_ok (q := q) (a := v) hn
  have hiv : i % q = i := by
    unfold bnModInv at hi
    split at hi
    · cases hi; exact Int.emod_emod_of_dvd _ (dvd_refl _)
    · cases hi
  refine ⟨_, ?_, red_mk i, ?_⟩
  · unfold Zr.multInverse; dsimp only; rw [if_pos rfl, hi, hiv]; rfl
  · rw [residue_mk, hi2]; rfl

theorem leaf_result {z : Zr} (h : z.order = if z.isSet then (q : Int) else 0) : Result q (obj z) z :=
  ⟨rfl, rfl, h, fun hc => by cases hc⟩

/-- Both directions at once. -/
theorem run_spec : ∀ (e : ZExpr), e.Over q → (e.Fine q → ∃ r, e.run = .ok r ∧ Result q e r) ∧ (∀ r, e.run = .ok r → e.Fine q) := by
  intro e
  have binary : ∀ (a b : ZExpr) (op : Zr → Zr → Res Zr),
      ((a.Fine q → ∃ r, a.run = .ok r ∧ Result q a r) ∧ (∀ r, a.run = .ok r → a.Fine q)) →
      ((b.Fine q → ∃ r, b.run = .ok r ∧ Result q b r) ∧ (∀ r, b.run = .ok r → b.Fine q)) →
      (∀ x y, opOrder x y = 0 → ∀ r, op x y ≠ .ok r) →
      ∀ r, (do let x ← a.run; let y ← b.run; op x y : Res Zr) = .ok r →
        (a.Fine q ∧ b.Fine q ∧ (a.ordered = true ∨ b.ordered = true)) ∧
          ∃ x y, Result q a x ∧ Result q b y ∧ op x y = .ok r := by
    intro a b op ha hb hop r h
    obtain ⟨x, hx, h⟩ := (Res.bind_eq_ok _ _ _).mp h
    obtain ⟨y, hy, h⟩ := (Res.bind_eq_ok _ _ _).mp h
    have fa := ha.2 x hx
    have fb := hb.2 y hy
    obtain ⟨x', hx', ra⟩ := ha.1 fa
    obtain ⟨y', hy', rb⟩ := hb.1 fb
    rw [hx] at hx'; cases hx'
    rw [hy] at hy'; cases hy'
    refine ⟨⟨fa, fb, Classical.byContradiction fun hn => ?_⟩, x, y, ra, rb, h⟩
    exact hop x y (opOrder_none ra rb hn) r h
  have unary : ∀ (a : ZExpr) (op : Zr → Res Zr),
      ((a.Fine q → ∃ r, a.run = .ok r ∧ Result q a r) ∧ (∀ r, a.run = .ok r → a.Fine q)) →
      ∀ r, (do let x ← a.run; op x : Res Zr) = .ok r → a.Fine q ∧ ∃ x, Result q a x ∧ op x = .ok r := by
    intro a op ha r h
    obtain ⟨x, hx, h⟩ := (Res.bind_eq_ok _ _ _).mp h
    have fa := ha.2 x hx
    obtain ⟨x', hx', ra⟩ := ha.1 fa
    rw [hx] at hx'; cases hx'
    exact ⟨fa, x, ra, h⟩
  have hq : 0 < q := (Fact.out : q.Prime).pos
  induction e with
  | obj z => exact fun h => ⟨fun _ => ⟨z, rfl, leaf_result h⟩, fun _ _ => trivial⟩
  | add a b iha ihb =>
    rintro ⟨oa, ob⟩
    refine ⟨?_, fun r h => (binary a b Zr.add (iha oa) (ihb ob) (fun x y h0 r => ?_) r h).1⟩
    · rintro ⟨fa, fb, ho⟩
      obtain ⟨x, hx, rx⟩ := (iha oa).1 fa
      obtain ⟨y, hy, ry⟩ := (ihb ob).1 fb
      obtain ⟨⟨r, h1, h2, h3⟩, -⟩ := C98_ring_operations q hq x y (opOrder_q rx ry ho)
      refine ⟨r, ?_, red_result h2 rfl ?_⟩
      · simp only [run, hx, hy, Res.ok_bind, h1]
      · rw [h3, rx.value, ry.value]; rfl
    · unfold Zr.add; rw [h0, bnMod_zero]; simp
  | sub a b iha ihb =>
    rintro ⟨oa, ob⟩
    refine ⟨?_, fun r h => (binary a b Zr.sub (iha oa) (ihb ob) (fun x y h0 r => ?_) r h).1⟩
    · rintro ⟨fa, fb, ho⟩
      obtain ⟨x, hx, rx⟩ := (iha oa).1 fa
      obtain ⟨y, hy, ry⟩ := (ihb ob).1 fb
      obtain ⟨-, ⟨r, h1, h2, h3⟩, -⟩ := C98_ring_operations q hq x y (opOrder_q rx ry ho)
      refine ⟨r, ?_, red_result h2 rfl ?_⟩
      · simp only [run, hx, hy, Res.ok_bind, h1]
      · rw [h3, rx.value, ry.value]; rfl
    · unfold Zr.sub; rw [h0, bnMod_zero]; simp
  | mul a b iha ihb =>
    rintro ⟨oa, ob⟩
    refine ⟨?_, fun r h => (binary a b Zr.mul (iha oa) (ihb ob) (fun x y h0 r => ?_) r h).1⟩
    · rintro ⟨fa, fb, ho⟩
      obtain ⟨x, hx, rx⟩ := (iha oa).1 fa
      obtain ⟨y, hy, ry⟩ := (ihb ob).1 fb
      obtain ⟨-, -, ⟨r, h1, h2, h3⟩, -⟩ := C98_ring_operations q hq x y (opOrder_q rx ry ho)
      refine ⟨r, ?_, red_result h2 rfl ?_⟩
      · simp only [run, hx, hy, Res.ok_bind, h1]
      · rw [h3, rx.value, ry.value]; rfl
    · unfold Zr.mul; rw [h0, bnMod_zero]; simp
  | div a b iha ihb =>
    rintro ⟨oa, ob⟩
    refine ⟨?_, fun r h => ?_⟩
    · rintro ⟨fa, fb, ho, hn⟩
      obtain ⟨x, hx, rx⟩ := (iha oa).1 fa
      obtain ⟨y, hy, ry⟩ := (ihb ob).1 fb
      have hy0 : residue q y ≠ 0 := by rw [ry.value]; exact hn
      have hv : y.val ≠ 0 := by
        intro e
        apply hy0
        unfold residue; rw [e]; simp
      obtain ⟨r, h1, h2, h3⟩ := div_ok (opOrder_q rx ry ho) hv hy0
      refine ⟨r, ?_, red_result h2 rfl ?_⟩
      · simp only [run, hx, hy, Res.ok_bind, h1]
      · rw [h3, rx.value, ry.value]; rfl
    · obtain ⟨⟨fa, fb, ho⟩, x, y, rx, ry, h⟩ := binary a b Zr.div (iha oa) (ihb ob) (fun x y h0 r => by
        unfold Zr.div; rw [h0]
        split
        · simp
        · rw [bnModInv_zero]; simp) r h
      refine ⟨fa, fb, ho, fun e => ?_⟩
      unfold Zr.div at h
      split at h
      · cases h
      · rw [opOrder_q rx ry ho, bnModInv_dvd (show (y.val : ZMod q) = 0 by rw [← e, ← ry.value]; rfl)] at h
        cases h
  | neg a iha =>
    intro oa
    refine ⟨?_, fun r h => ?_⟩
    · rintro ⟨fa, ho⟩
      obtain ⟨x, hx, rx⟩ := (iha oa).1 fa
      obtain ⟨r, h1, h2, h3⟩ := neg_ok (q := q) (by rw [rx.isSet, ho]) (by rw [rx.order, ho]; rfl)
      refine ⟨r, ?_, red_result h2 ho ?_⟩
      · simp only [run, hx, Res.ok_bind, h1]
      · rw [h3, rx.value]; rfl
    · obtain ⟨fa, x, rx, h⟩ := unary a Zr.neg (iha oa) r h
      refine ⟨fa, Classical.byContradiction fun hn => ?_⟩
      unfold Zr.neg at h
      rw [rx.order, if_neg hn, bnMod_zero] at h
      cases h
  | inv a iha =>
    intro oa
    refine ⟨?_, fun r h => ?_⟩
    · rintro ⟨fa, hn⟩
      obtain ⟨x, hx, rx⟩ := (iha oa).1 fa
      by_cases ho : a.ordered = true
      · obtain ⟨r, h1, h2, h3⟩ := inv_ok (q := q) (by rw [rx.isSet, ho]) (by rw [rx.order, ho]; rfl) (by rw [rx.value]; exact hn ho)
        refine ⟨r, ?_, red_result h2 ho ?_⟩
        · simp only [run, hx, Res.ok_bind, h1]
        · rw [h3, rx.value]; simp only [value, ho, if_true]
      · have ho' : a.ordered = false := by simpa using ho
        refine ⟨x, ?_, ?_, ?_, ?_, ?_⟩
        · simp only [run, hx, Res.ok_bind]
          unfold Zr.multInverse
          rw [rx.isSet, ho']; rfl
        · rw [rx.value]; simp only [value, ho', Bool.false_eq_true, if_false]
        · exact rx.isSet
        · exact rx.order
        · intro _ h; exact absurd h ho
    · obtain ⟨fa, x, rx, h⟩ := unary a Zr.multInverse (iha oa) r h
      refine ⟨fa, fun ho hn => ?_⟩
      unfold Zr.multInverse at h
      rw [rx.isSet, ho, if_pos rfl, rx.order, if_pos ho, bnModInv_dvd (show (x.val : ZMod q) = 0 by rw [← hn, ← rx.value]; rfl)] at h
      cases h
  | pow a n iha =>
    intro oa
    refine ⟨?_, fun r h => ?_⟩
    · rintro ⟨fa, ho⟩
      obtain ⟨x, hx, rx⟩ := (iha oa).1 fa
      obtain ⟨r, h1, h2, h3⟩ := powU_ok (q := q) (x := x) n (by rw [rx.order, ho]; rfl)
      refine ⟨r, ?_, red_result h2 rfl ?_⟩
      · simp only [run, hx, Res.ok_bind, h1]
      · rw [h3, rx.value]; rfl
    · obtain ⟨fa, x, rx, h⟩ := unary a (fun x => x.powU n) (iha oa) r h
      refine ⟨fa, Classical.byContradiction fun hn => ?_⟩
      unfold Zr.powU at h
      rw [rx.order, if_neg hn, bnExp_zero] at h
      cases h
  | powObj a z iha =>
    rintro ⟨oa, oz⟩
    have rz := leaf_result (q := q) oz
    refine ⟨?_, fun r h => ?_⟩
    · rintro ⟨fa, ho, hz⟩
      obtain ⟨x, hx, rx⟩ := (iha oa).1 fa
      obtain ⟨-, -, -, hp⟩ := C98_ring_operations q hq x z (opOrder_q rx rz ho)
      obtain ⟨r, h1, h2, h3⟩ := hp hz
      refine ⟨r, ?_, red_result h2 rfl ?_⟩
      · simp only [run, hx, Res.ok_bind, h1]
      · rw [h3, rx.value]; rfl
    · obtain ⟨fa, x, rx, h⟩ := unary a (fun x => x.pow z) (iha oa) r h
      have hz : 0 ≤ z.val := by
        refine Classical.byContradiction fun hn => ?_
        unfold Zr.pow bnExp at h
        rw [if_neg (fun hh => hn hh.2)] at h
        cases h
      refine ⟨fa, Classical.byContradiction fun hn => ?_, hz⟩
      unfold Zr.pow at h
      rw [opOrder_none rx rz hn, bnExp_zero] at h
      cases h

/-- **C154.** An expression of any size over `ZP` objects that have the prime order `q` or no order returns exactly if every operator
has an operand with an order, no divisor and nothing inverted is zero in the field, and no exponent is negative. -/
theorem C154_defined (e : ZExpr) (h : e.Over q) : (∃ r, e.run = .ok r) ↔ e.Fine q :=
  ⟨fun ⟨r, hr⟩ => (run_spec e h).2 r hr, fun hf => let ⟨r, hr, _⟩ := (run_spec e h).1 hf; ⟨r, hr⟩⟩

/-- **C154 (value).** If it returns, the result stands for the value in the field (where inverting does nothing to what has no order),
it has an order exactly if the expression has one, and it is reduced unless the expression is just an object. -/
theorem C154_value (e : ZExpr) (h : e.Over q) (r : Zr) (hr : e.run = .ok r) :
    (r.val : ZMod q) = e.value q ∧ r.isSet = e.ordered ∧ (e.ordered = true → r.order = q) ∧
      (e.computed = true → e.ordered = true → 0 ≤ r.val ∧ r.val < q) := by
  obtain ⟨r', hr', h'⟩ := (run_spec e h).1 ((run_spec e h).2 r hr)
  rw [hr] at hr'; cases hr'
  exact ⟨h'.value, h'.isSet, fun ho => by rw [h'.order, if_pos ho], h'.red⟩

/-- **C154 (comparison).** Two computed expressions with an order are found equal exactly if their values in the field are. -/
theorem C154_equal (e f : ZExpr) (he : e.Over q) (hf : f.Over q) (r s : Zr) (hr : e.run = .ok r) (hs : f.run = .ok s)
    (ce : e.computed = true) (cf : f.computed = true) (oe : e.ordered = true) (of : f.ordered = true) :
    Zr.eq r s = true ↔ e.value q = f.value q := by
  obtain ⟨h1, h2, h3, h4⟩ := C154_value e he r hr
  obtain ⟨k1, k2, k3, k4⟩ := C154_value f hf s hs
  rw [C98_equality_partial q r s ⟨by rw [h2, oe], h3 oe, h4 ce oe⟩ ⟨by rw [k2, of], k3 of, k4 cf of⟩]
  unfold residue
  rw [h1, k1]

/-- `(3 + x) / (x - 5)` for `x = 9` modulo 11: `3` and `5` have no order. -/
example : haveI : Fact (Nat.Prime 11) := ⟨by norm_num⟩
    (div (add (obj (Zr.ofNat 3)) (obj (Zr.ofHex 9 11))) (sub (obj (Zr.ofHex 9 11)) (obj (Zr.ofNat 5)))).Fine 11 ∧
    (div (add (obj (Zr.ofNat 3)) (obj (Zr.ofHex 9 11))) (sub (obj (Zr.ofHex 9 11)) (obj (Zr.ofNat 5)))).Over 11 := by
  have h9 : (((9 : Int) : ZMod 11) - (((5 : Nat) : Int) : ZMod 11)) ≠ 0 := by decide
  have : Fact (Nat.Prime 11) := ⟨by norm_num⟩
  refine ⟨⟨⟨trivial, trivial, Or.inr rfl⟩, ⟨trivial, trivial, Or.inl rfl⟩, Or.inl rfl, ?_⟩, ⟨rfl, rfl⟩, rfl, rfl⟩
  exact h9

/-- `3 + 5` for objects without an order is undefined. -/
example : haveI : Fact (Nat.Prime 11) := ⟨by norm_num⟩
    ¬ (add (obj (Zr.ofNat 3)) (obj (Zr.ofNat 5))).Fine 11 := by
  rintro ⟨-, -, h | h⟩ <;> cases h

end ZExpr
end Abe
