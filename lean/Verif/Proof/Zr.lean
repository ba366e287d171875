import Verif.Model.Zr
import Verif.Proof.Scan
import Mathlib.Data.ZMod.Basic
import Mathlib.Algebra.Field.ZMod
/-!
# The `ZP` objects represent the field

Simulation between Verif/Model/Zr.lean (integers with a modulus and a flag) and Verif/Model/LSSS.lean over the
field `ZMod q`.
-/
set_option linter.unusedSimpArgs false
set_option linter.unusedSectionVars false
set_option autoImplicit false
namespace Abe

/-- Two outcomes of the same kind, with related values if both are values. -/
inductive Sim {α β : Type} (R : α → β → Prop) : Res α → Res β → Prop
  | ok {a : α} {b : β} : R a b → Sim R (.ok a) (.ok b)
  | throw (e : Err) : Sim R (.throw e) (.throw e)
  | ub : Sim R .ub .ub
  | abort : Sim R .abort .abort

theorem Sim.bind {α β γ δ : Type} {R : α → β → Prop} {T : γ → δ → Prop} {x : Res α} {y : Res β}
    {f : α → Res γ} {g : β → Res δ} (h : Sim R x y) (hf : ∀ a b, R a b → Sim T (f a) (g b)) :
    Sim T (x >>= f) (y >>= g) := by
  cases h with
  | ok h => exact hf _ _ h
  | throw e => exact .throw e
  | ub => exact .ub
  | abort => exact .abort

theorem Sim.refl {α : Type} (x : Res α) : Sim Eq x x := by
  cases x with
  | ok a => exact .ok rfl
  | throw e => exact .throw e
  | ub => exact .ub
  | abort => exact .abort

theorem Sim.ok_right {α β : Type} {R : α → β → Prop} {x : Res α} {b : β} (h : Sim R x (.ok b)) :
    ∃ a, x = .ok a ∧ R a b := by
  cases h with
  | ok h => exact ⟨_, rfl, h⟩

theorem Sim.ok_left {α β : Type} {R : α → β → Prop} {a : α} {y : Res β} (h : Sim R (.ok a) y) :
    ∃ b, y = .ok b ∧ R a b := by
  cases h with
  | ok h => exact ⟨_, rfl, h⟩

namespace Zr
variable (q : Nat)

/-- The residue class an object stands for. -/
def residue (z : Zr) : ZMod q := (z.val : ZMod q)

/-- If an order was set, it is the group order. -/
def OrdOk (z : Zr) : Prop := z.isSet = true → z.order = q

/-- An object with the group order and a reduced value. -/
def Red (z : Zr) : Prop := z.isSet = true ∧ z.order = q ∧ 0 ≤ z.val ∧ z.val < q

variable {q}

theorem Red.ordOk {z : Zr} (h : Red q z) : OrdOk q z := fun _ => h.2.1

theorem opOrder_left {x y : Zr} (h : Red q x) : opOrder x y = q := by
  simp [opOrder, h.1, h.2.1]

theorem opOrder_right {x y : Zr} (hx : OrdOk q x) (h : Red q y) : opOrder x y = q := by
  unfold opOrder
  split
  · next hs => exact hx hs
  · exact h.2.1

variable [Fact q.Prime]

theorem qpos : (0 : Int) < (q : Int) := by
  have := (Fact.out : q.Prime).pos
  exact_mod_cast this

theorem bnMod_q (a : Int) : bnMod a q = .ok (a % q) := if_pos qpos

theorem red_mk (a : Int) : Red q { val := a % q, order := q, isSet := true } :=
  ⟨rfl, rfl, Int.emod_nonneg _ (ne_of_gt qpos), Int.emod_lt_of_pos _ qpos⟩

theorem residue_mk (a : Int) : residue q { val := a % q, order := q, isSet := true } = (a : ZMod q) := by
  show ((a % q : Int) : ZMod q) = a
  rw [ZMod.intCast_eq_intCast_iff_dvd_sub]
  exact ⟨a / q, by have := Int.mul_ediv_add_emod a q; omega⟩

theorem add_ok {x y : Zr} (h : opOrder x y = q) :
    ∃ r, add x y = .ok r ∧ Red q r ∧ residue q r = residue q x + residue q y := by
  refine ⟨_, ?_, red_mk (x.val + y.val), ?_⟩
  · unfold add; rw [h, bnMod_q]; rfl
  · rw [residue_mk]; simp [residue]

theorem sub_ok {x y : Zr} (h : opOrder x y = q) :
    ∃ r, sub x y = .ok r ∧ Red q r ∧ residue q r = residue q x - residue q y := by
  refine ⟨_, ?_, red_mk (x.val - y.val), ?_⟩
  · unfold sub; rw [h, bnMod_q]; rfl
  · rw [residue_mk]; simp [residue]

theorem mul_ok {x y : Zr} (h : opOrder x y = q) :
    ∃ r, mul x y = .ok r ∧ Red q r ∧ residue q r = residue q x * residue q y := by
  refine ⟨_, ?_, red_mk (x.val * y.val), ?_⟩
  · unfold mul; rw [h, bnMod_q]; rfl
  · rw [residue_mk]; simp [residue]

theorem powU_ok {x : Zr} (h : x.order = q) (n : Nat) :
    ∃ r, powU x n = .ok r ∧ Red q r ∧ residue q r = residue q x ^ n := by
  refine ⟨_, ?_, red_mk (x.val ^ n), ?_⟩
  · unfold powU bnExp; rw [h, if_pos ⟨qpos, by omega⟩]; rfl
  · rw [residue_mk]; simp [residue]

theorem red_val_zero {y : Zr} (h : Red q y) : y.val = 0 ↔ residue q y = 0 := by
  unfold residue
  rw [ZMod.intCast_zmod_eq_zero_iff_dvd]
  constructor
  · intro e; rw [e]; exact dvd_zero _
  · intro e; exact Int.eq_zero_of_dvd_of_nonneg_of_lt h.2.2.1 h.2.2.2 e

/-- The inverse computed by the extended Euclidean algorithm. -/
theorem bnModInv_ok {a : Int} (h : (a : ZMod q) ≠ 0) :
    ∃ i, bnModInv a q = .ok i ∧ (i : ZMod q) = (a : ZMod q)⁻¹ := by
  have hp : q.Prime := Fact.out
  have hnd : ¬ (q : Int) ∣ a := by
    intro hd; exact h ((ZMod.intCast_zmod_eq_zero_iff_dvd a q).mpr hd)
  have hg : Int.gcd a q = 1 := by
    have h1 : Nat.Coprime q a.natAbs := by
      rw [Nat.Prime.coprime_iff_not_dvd hp]
      intro hd
      exact hnd (Int.natCast_dvd.mpr hd)
    rw [Int.gcd_eq_natAbs]
    simpa using h1.symm
  refine ⟨_, if_pos ⟨qpos, hg⟩, ?_⟩
  have hb := Int.gcd_eq_gcd_ab a q
  rw [hg] at hb
  have h2 : ((Int.gcdA a q : Int) : ZMod q) * (a : ZMod q) = 1 := by
    have := congrArg (fun z : Int => (z : ZMod q)) hb
    simp at this
    rw [mul_comm]; exact this.symm
  have h3 : ((Int.gcdA a q % q : Int) : ZMod q) = ((Int.gcdA a q : Int) : ZMod q) := by
    have := residue_mk (q := q) (Int.gcdA a q)
    exact this
  rw [h3]
  exact eq_inv_of_mul_eq_one_left h2

theorem div_ok {x y : Zr} (h : opOrder x y = q) (hy : y.val ≠ 0) (hc : residue q y ≠ 0) :
    ∃ r, div x y = .ok r ∧ Red q r ∧ residue q r = residue q x / residue q y := by
  obtain ⟨i, hi, hi2⟩ := bnModInv_ok (q := q) (a := y.val) hc
  refine ⟨_, ?_, red_mk (i * x.val), ?_⟩
  · unfold div; rw [if_neg hy, h, hi]; simp only [Res.ok_bind]; rw [bnMod_q]; rfl
  · rw [residue_mk]
    push_cast
    rw [hi2, div_eq_mul_inv, mul_comm]; rfl

theorem setOrder_red {n : Nat} (h : n < q) : Red q ((ofNat n).setOrder q) :=
  ⟨rfl, rfl, by simp [ofNat, setOrder], by simp [ofNat, setOrder]; exact_mod_cast h⟩

theorem zero_red : Red q (({} : Zr).setOrder q) := ⟨rfl, rfl, le_refl _, qpos⟩

end Zr

open Zr

/-! ## Maps -/

/-- Apply a function to the values of a map of rows. -/
def mapRows {α β : Type} (f : α → β) (m : SMap (Bytes × α)) : SMap (Bytes × β) :=
  m.map fun r => (r.1, r.2.1, f r.2.2)

theorem mapRows_insert {α β : Type} (f : α → β) (k l : Bytes) (v : α) (m : SMap (Bytes × α)) :
    mapRows f (SMap.insert k (l, v) m) = SMap.insert k (l, f v) (mapRows f m) := by
  induction m with
  | nil => rfl
  | cons r m ih =>
    obtain ⟨k', l', v'⟩ := r
    simp only [mapRows, List.map_cons, SMap.insert] at ih ⊢
    split
    · rfl
    · split
      · rfl
      · rw [List.map_cons, ih]

theorem mapRows_find {α β : Type} (f : α → β) (k : Bytes) (m : SMap (Bytes × α)) :
    SMap.find k (mapRows f m) = (SMap.find k m).map fun r => (r.1, f r.2) := by
  induction m with
  | nil => rfl
  | cons r m ih =>
    obtain ⟨k', l', v'⟩ := r
    simp only [mapRows, List.map_cons, SMap.find] at ih ⊢
    split
    · rfl
    · exact ih

/-- The secret-sharing object with every value replaced. -/
def LSSS.mapVal {α β : Type} (f : α → β) (o : LSSS α) : LSSS β :=
  { results := mapRows f o.results, attrCount := o.attrCount }

section
variable {q : Nat} [Fact q.Prime]

/-- Objects and field elements on the stacks. -/
def PairRel (K : Zr → Prop) (x : TNode × Zr) (y : TNode × ZMod q) : Prop :=
  x.1 = y.1 ∧ residue q x.2 = y.2 ∧ K x.2

/-- Objects of the two models. -/
def ObjRel (K : Zr → Prop) (o : LSSS Zr) (o' : LSSS (ZMod q)) : Prop :=
  o.mapVal (residue q) = o' ∧ ∀ r ∈ o.results, K r.2.2

theorem addShare_sim {K : Zr → Prop} {o : LSSS Zr} {o' : LSSS (ZMod q)} (h : ObjRel K o o')
    (pre lab : Bytes) (idx : Option Nat) {e : Zr} {e' : ZMod q} (he : residue q e = e') (hk : K e) :
    Sim (ObjRel K) (zrAddShare o pre lab idx e) (addShare o' pre lab idx e') := by
  obtain ⟨rfl, h2⟩ := h
  unfold zrAddShare addShare
  refine Sim.bind (Sim.refl _) ?_
  rintro u _ rfl
  refine .ok ⟨?_, ?_⟩
  · simp only [LSSS.mapVal, mapRows_insert, he]
  · intro r hr
    rcases SMap.mem_insert' hr with rfl | hr
    · exact hk
    · exact h2 r hr

theorem evalLoop_ok {x : Zr} (hx : Red q x) : ∀ (cs : List Zr) (i : Nat) (acc : Zr),
    (∀ c ∈ cs, OrdOk q c) → Red q acc →
    ∃ r, zrEvalLoop x cs i acc = .ok r ∧ Red q r ∧
      residue q r = evalLoop (residue q x) (cs.map (residue q)) i (residue q acc)
  | [], _, acc, _, ha => ⟨acc, rfl, ha, rfl⟩
  | c :: cs, i, acc, hc, ha => by
    obtain ⟨p, hp, hp1, hp2⟩ := powU_ok (q := q) hx.2.1 i
    obtain ⟨m, hm, hm1, hm2⟩ := mul_ok (q := q) (opOrder_right (hc c (by simp)) hp1)
    obtain ⟨s, hs, hs1, hs2⟩ := add_ok (q := q) (opOrder_left (y := m) ha)
    obtain ⟨r, hr, hr1, hr2⟩ := evalLoop_ok hx cs (i + 1) s (fun c h => hc c (by simp [h])) hs1
    refine ⟨r, ?_, hr1, ?_⟩
    · unfold zrEvalLoop
      rw [hp, Res.ok_bind, hm, Res.ok_bind, hs, Res.ok_bind, hr]
    · rw [hr2, hs2, hm2, hp2]; rfl

theorem evaluatePolynomial_ok (cs : List Zr) (x : Nat) (hx : x < q) (hc : ∀ c ∈ cs, OrdOk q c) :
    ∃ r, zrEvaluatePolynomial q cs x = .ok r ∧ Red q r ∧
      residue q r = evaluatePolynomial (cs.map (residue q)) x := by
  obtain ⟨r, h1, h2, h3⟩ := evalLoop_ok (q := q) (setOrder_red hx) cs 0 _ hc zero_red
  refine ⟨r, h1, h2, ?_⟩
  rw [h3]
  unfold evaluatePolynomial
  congr 1
  · simp [residue, ofNat, setOrder]
  · simp [residue, setOrder]

theorem childShares_ok (cs : List Zr) (hc : ∀ c ∈ cs, OrdOk q c) : ∀ (subs : List TNode) (i : Nat),
    i + subs.length < q →
    ∃ l, zrChildShares q cs i subs = .ok l ∧
      List.Forall₂ (PairRel (Red q)) l
        (subs.mapIdx fun j c => (c, evaluatePolynomial (cs.map (residue q)) (i + j + 1)))
  | [], i, _ => ⟨[], rfl, by simp⟩
  | t :: subs, i, h => by
    simp only [List.length_cons] at h
    obtain ⟨s, hs, hs1, hs2⟩ := evaluatePolynomial_ok (q := q) cs (i + 1) (by omega) hc
    obtain ⟨l, hl, hl2⟩ := childShares_ok cs hc subs (i + 1) (by omega)
    refine ⟨(t, s) :: l, ?_, ?_⟩
    · unfold zrChildShares
      rw [hs, Res.ok_bind, hl]; rfl
    · rw [List.mapIdx_cons]
      refine .cons ⟨rfl, hs2, hs1⟩ ?_
      have e : (fun j (c : TNode) => (c, evaluatePolynomial (cs.map (residue q)) (i + (j + 1) + 1))) =
          fun j (c : TNode) => (c, evaluatePolynomial (cs.map (residue q)) (i + 1 + j + 1)) := by
        funext j c
        rw [show i + (j + 1) + 1 = i + 1 + j + 1 from by omega]
      rw [e]
      exact hl2

theorem drawCoeffs_cls (tape : Nat → Int) (pos n : Nat) :
    (zrDrawCoeffs q tape pos n).map (residue q) = drawCoeffs (fun i => ((tape i : Int) : ZMod q)) pos n := by
  unfold zrDrawCoeffs drawCoeffs
  rw [List.map_map]
  rfl

theorem drawCoeffs_ordOk (tape : Nat → Int) (pos n : Nat) :
    ∀ c ∈ zrDrawCoeffs q tape pos n, OrdOk q c := by
  intro c hc
  obtain ⟨i, _, rfl⟩ := List.mem_map.mp hc
  intro _
  rfl

mutual
/-- Every gate of the tree has fewer than `n` inputs. -/
def Narrow (n : Nat) : TNode → Prop
  | .leaf _ _ _ _ => True
  | .gate _ _ _ subs => subs.length < n ∧ NarrowL n subs
/-- The same for a forest. -/
def NarrowL (n : Nat) : List TNode → Prop
  | [] => True
  | c :: cs => Narrow n c ∧ NarrowL n cs
end

theorem NarrowL.mem {n : Nat} {l : List TNode} (h : NarrowL n l) {t : TNode} (ht : t ∈ l) : Narrow n t := by
  induction l with
  | nil => simp at ht
  | cons c cs ih =>
    rcases List.mem_cons.mp ht with rfl | ht
    · exact h.1
    · exact ih h.2 ht

theorem forall₂_mem_left {α β : Type} {R : α → β → Prop} {P : β → Prop} {l : List α} {m : List β}
    (h : List.Forall₂ R l m) (hP : ∀ b ∈ m, P b) {a : α} (ha : a ∈ l) : ∃ b, R a b ∧ P b := by
  induction h with
  | nil => simp at ha
  | cons hr _ ih =>
    rcases List.mem_cons.mp ha with rfl | ha
    · exact ⟨_, hr, hP _ (by simp)⟩
    · exact ih (fun b hb => hP b (by simp [hb])) ha

theorem shareLoop_sim {K : Zr → Prop} (hK1 : ∀ z, Red q z → K z) (hK2 : ∀ z, K z → OrdOk q z)
    (ndebug : Bool) (tape : Nat → Int) : ∀ (fuel : Nat) (stk : List (TNode × Zr))
    (stk' : List (TNode × ZMod q)) (pos : Nat) (o : LSSS Zr) (o' : LSSS (ZMod q)),
    List.Forall₂ (PairRel K) stk stk' → (∀ x ∈ stk, Narrow q x.1) → ObjRel K o o' →
    Sim (fun a b => ObjRel K a.1 b.1 ∧ a.2 = b.2) (zrShareLoop q ndebug tape fuel stk pos o)
      (shareLoop ndebug (fun i => ((tape i : Int) : ZMod q)) fuel stk' pos o') := by
  intro fuel
  induction fuel with
  | zero =>
    intro stk stk' pos o o' hs _ ho
    cases hs with
    | nil => unfold zrShareLoop shareLoop; exact .ok ⟨ho, rfl⟩
    | cons _ _ => unfold zrShareLoop shareLoop; exact .abort
  | succ fuel ih =>
    intro stk stk' pos o o' hs hn ho
    cases hs with
    | nil => unfold zrShareLoop shareLoop; exact .ok ⟨ho, rfl⟩
    | @cons x y stk stk' hxy hs =>
      obtain ⟨t, v⟩ := x
      obtain ⟨t', v'⟩ := y
      obtain ⟨rfl, hv, hk⟩ := hxy
      dsimp only at hv hk
      cases t with
      | leaf fl pre lab idx =>
        simp only [zrShareLoop, shareLoop]
        refine Sim.bind (addShare_sim ho pre lab idx hv hk) ?_
        intro a b hab
        exact ih stk stk' pos a b hs (fun x hx => hn x (by simp [hx])) hab
      | gate fl ty thr subs =>
        have hnt : Narrow q (.gate fl ty thr subs) := hn (.gate fl ty thr subs, v) (by simp)
        simp only [zrShareLoop, shareLoop]
        generalize (if ndebug = true then 0 else thresholdValue ty thr subs.length) = th
        by_cases h0 : th = 0
        · rw [if_pos h0, if_pos h0]
          split
          · exact .ub
          · exact .abort
        · rw [if_neg h0, if_neg h0]
          have hcs : ∀ c ∈ (zrDrawCoeffs q tape pos th).set 0 v, OrdOk q c := by
            intro c hc
            rcases List.mem_or_eq_of_mem_set hc with h | rfl
            · exact drawCoeffs_ordOk tape pos th c h
            · exact hK2 _ hk
          obtain ⟨l, hl, hl2⟩ := childShares_ok (q := q) _ hcs subs 0 (by simpa using hnt.1)
          rw [hl, Res.ok_bind]
          refine ih _ _ _ o o' ?_ ?_ ho
          · refine List.rel_append ?_ hs
            apply List.rel_reverse
            have e : ((zrDrawCoeffs q tape pos th).set 0 v).map (residue q) =
                (drawCoeffs (fun i => ((tape i : Int) : ZMod q)) pos th).set 0 v' := by
              rw [List.map_set, drawCoeffs_cls, hv]
            rw [e] at hl2
            unfold childShares
            refine List.Forall₂.imp (fun a b (h : PairRel (Red q) a b) => ⟨h.1, h.2.1, hK1 _ h.2.2⟩) ?_
            simpa using hl2
          · intro x hx
            rcases List.mem_append.mp hx with hx | hx
            · have hx' := List.mem_reverse.mp hx
              obtain ⟨b, hb, hbm⟩ := forall₂_mem_left (P := fun b => b.1 ∈ subs) hl2 (by
                intro b hb
                rw [List.mem_mapIdx] at hb
                obtain ⟨i, hi, rfl⟩ := hb
                exact List.getElem_mem hi) hx'
              rw [hb.1]
              exact hnt.2.mem hbm
            · exact hn x (by simp [hx])

theorem shareSecret_sim {K : Zr → Prop} (hK1 : ∀ z, Red q z → K z) (hK2 : ∀ z, K z → OrdOk q z)
    (ndebug : Bool) (o : LSSS Zr) (o' : LSSS (ZMod q)) (hc : o.attrCount = o'.attrCount)
    (policy : Option Policy) (hn : ∀ p t, policy = some p → p.root = some t → Narrow q t)
    (elt : Zr) (he : K elt) (tape : Nat → Int) :
    Sim (fun a b => ObjRel K a.1 b.1 ∧ a.2 = b.2) (zrShareSecret q ndebug o policy elt tape)
      (shareSecret ndebug o' policy (residue q elt) (fun i => ((tape i : Int) : ZMod q))) := by
  cases policy with
  | none => exact .ub
  | some p =>
    cases hr : p.root with
    | none =>
      simp only [zrShareSecret, shareSecret, hr]
      split
      · exact .ub
      · exact .abort
    | some t =>
      simp only [zrShareSecret, shareSecret, hr]
      apply shareLoop_sim hK1 hK2
      · exact .cons ⟨rfl, rfl, he⟩ .nil
      · intro x hx
        simp only [List.mem_singleton] at hx
        subst hx
        exact hn p t rfl hr
      · refine ⟨?_, by simp⟩
        simp [LSSS.mapVal, mapRows, hc]

/-! ## Recovery -/

theorem coeffLoop_sim (subs : List TNode) (index : Nat) (hi : index + 1 < q) : ∀ (is : List Nat) (r : Zr)
    (r' : ZMod q), (∀ i ∈ is, i + 1 < q) → Red q r → residue q r = r' →
    Sim (fun a b => residue q a = b ∧ Red q a) (zrCoeffLoop q subs index is r) (coeffLoop subs index is r') := by
  intro is
  induction is with
  | nil => intro r r' _ hr he; exact .ok ⟨he, hr⟩
  | cons i is ih =>
    intro r r' his hr he
    simp only [zrCoeffLoop, coeffLoop]
    by_cases hm : (markAt subs i && (i != index)) = true
    · rw [if_pos hm, if_pos hm]
      have h1 : Red q ((ofNat (i + 1)).setOrder q) := setOrder_red (his i (by simp))
      have h2 : Red q ((ofNat (index + 1)).setOrder q) := setOrder_red hi
      obtain ⟨num, hn, hn1, hn2⟩ := sub_ok (q := q) (x := {}) (opOrder_right (by intro h; cases h) h1)
      obtain ⟨den, hd, hd1, hd2⟩ := sub_ok (q := q) (opOrder_left (y := (ofNat (i + 1)).setOrder q) h2)
      have c1 : residue q ((ofNat (i + 1)).setOrder q) = ((i + 1 : Nat) : ZMod q) := by
        simp [residue, ofNat, setOrder]
      have c2 : residue q ((ofNat (index + 1)).setOrder q) = ((index + 1 : Nat) : ZMod q) := by
        simp [residue, ofNat, setOrder]
      have c0 : residue q ({} : Zr) = 0 := by simp [residue]
      rw [c1, c2] at hd2
      rw [c0, c1] at hn2
      rw [hn, Res.ok_bind, hd, Res.ok_bind]
      by_cases hz : den.val = 0
      · have hz' : ((index + 1 : Nat) : ZMod q) - ((i + 1 : Nat) : ZMod q) = 0 := by
          rw [← hd2]; exact (red_val_zero hd1).mp hz
        rw [if_pos hz']
        unfold Zr.div
        rw [if_pos hz]
        exact .abort
      · have hz2 : residue q den ≠ 0 := fun e => hz ((red_val_zero hd1).mpr e)
        have hz' : ¬ ((index + 1 : Nat) : ZMod q) - ((i + 1 : Nat) : ZMod q) = 0 := by
          rw [← hd2]; exact hz2
        rw [if_neg hz']
        obtain ⟨quo, hq, hq1, hq2⟩ := div_ok (q := q) (opOrder_left (y := den) hn1) hz hz2
        obtain ⟨m, hm, hm1, hm2⟩ := mul_ok (q := q) (opOrder_left (y := quo) hr)
        obtain ⟨r2, hr2, hr3, hr4⟩ := mul_ok (q := q) (opOrder_left (y := m) hr)
        rw [hq, Res.ok_bind, hm, Res.ok_bind, hr2, Res.ok_bind]
        refine ih _ _ (fun i h => his i (by simp [h])) hr3 ?_
        rw [hr4, hm2, hq2, hn2, hd2, he]
    · rw [if_neg hm, if_neg hm]
      exact ih _ _ (fun i h => his i (by simp [h])) hr he

theorem calculateCoefficient_sim (subs : List TNode) (index threshold : Nat) (hi : index < subs.length)
    (hq : subs.length < q) :
    Sim (fun a b => residue q a = b ∧ Red q a) (zrCalculateCoefficient q subs index threshold)
      (calculateCoefficient subs index threshold) := by
  unfold zrCalculateCoefficient calculateCoefficient
  by_cases h : subs.length < threshold
  · rw [if_pos h, if_pos h]; exact .ub
  · rw [if_neg h, if_neg h]
    refine coeffLoop_sim subs index (by omega) _ _ _ ?_ (setOrder_red (Fact.out : q.Prime).one_lt) ?_
    · intro i hi; rw [List.mem_range] at hi; omega
    · simp [residue, ofNat, setOrder]

theorem childCoeffs_sim (subs : List TNode) (threshold : Nat) (hq : subs.length < q) {v : Zr} {v' : ZMod q}
    (hv : Red q v) (he : residue q v = v') : ∀ l : List (TNode × Nat), (∀ x ∈ l, x.2 < subs.length) →
    Sim (List.Forall₂ (PairRel (Red q))) (zrChildCoeffs q subs threshold v l)
      (childCoeffs subs threshold v' l) := by
  intro l
  induction l with
  | nil => intro _; exact .ok .nil
  | cons x l ih =>
    obtain ⟨c, i⟩ := x
    intro hl
    simp only [zrChildCoeffs, childCoeffs]
    have ih' := ih (fun x hx => hl x (by simp [hx]))
    split
    · refine Sim.bind (calculateCoefficient_sim subs i threshold (hl (c, i) (by simp)) hq) ?_
      rintro k k' ⟨hk, hk2⟩
      obtain ⟨m, hm, hm1, hm2⟩ := mul_ok (q := q) (opOrder_left (y := k) hv)
      rw [hm, Res.ok_bind]
      refine Sim.bind ih' ?_
      intro a b hab
      refine .ok (.cons ⟨rfl, ?_, hm1⟩ hab)
      show residue q m = v' * k'
      rw [hm2, he, hk]
    · exact ih'

theorem childCoeffs_nodes {subs : List TNode} {threshold : Nat} {v : ZMod q} :
    ∀ (l : List (TNode × Nat)) (r : List (TNode × ZMod q)), childCoeffs subs threshold v l = .ok r →
      ∀ x ∈ r, ∃ y ∈ l, y.1 = x.1 := by
  intro l
  induction l with
  | nil => intro r h x hx; simp [childCoeffs] at h; subst h; simp at hx
  | cons a l ih =>
    obtain ⟨c, i⟩ := a
    intro r h x hx
    simp only [childCoeffs] at h
    split at h
    · obtain ⟨k, _, h⟩ := (Res.bind_eq_ok _ _ _).mp h
      obtain ⟨rest, hrest, h⟩ := (Res.bind_eq_ok _ _ _).mp h
      simp only [Res.ok.injEq] at h
      subst h
      rcases List.mem_cons.mp hx with rfl | hx
      · exact ⟨(c, i), by simp, rfl⟩
      · obtain ⟨y, hy, e⟩ := ih rest hrest x hx
        exact ⟨y, by simp [hy], e⟩
    · obtain ⟨y, hy, e⟩ := ih r h x hx
      exact ⟨y, by simp [hy], e⟩

theorem recoverLoop_sim : ∀ (fuel : Nat) (stk : List (TNode × Zr)) (stk' : List (TNode × ZMod q))
    (res : Bool) (o : LSSS Zr) (o' : LSSS (ZMod q)),
    List.Forall₂ (PairRel (Red q)) stk stk' → (∀ x ∈ stk', Narrow q x.1) → ObjRel (Red q) o o' →
    Sim (fun a b => a.1 = b.1 ∧ ObjRel (Red q) a.2 b.2) (zrRecoverLoop q fuel stk res o)
      (recoverLoop fuel stk' res o') := by
  intro fuel
  induction fuel with
  | zero =>
    intro stk stk' res o o' hs _ ho
    cases hs with
    | nil => unfold zrRecoverLoop recoverLoop; exact .ok ⟨rfl, ho⟩
    | cons _ _ => unfold zrRecoverLoop recoverLoop; exact .abort
  | succ fuel ih =>
    intro stk stk' res o o' hs hn ho
    cases hs with
    | nil => unfold zrRecoverLoop recoverLoop; exact .ok ⟨rfl, ho⟩
    | @cons x y stk stk' hxy hs =>
      obtain ⟨t, v⟩ := x
      obtain ⟨t', v'⟩ := y
      obtain ⟨rfl, hv, hk⟩ := hxy
      dsimp only at hv hk
      cases t with
      | leaf fl pre lab idx =>
        simp only [zrRecoverLoop, recoverLoop]
        refine Sim.bind (addShare_sim ho pre lab idx hv hk) ?_
        intro a b hab
        exact ih stk stk' true a b hs (fun x hx => hn x (by simp [hx])) hab
      | gate fl ty thr subs =>
        have hnt : Narrow q (.gate fl ty thr subs) := hn (.gate fl ty thr subs, v') (by simp)
        simp only [zrRecoverLoop, recoverLoop]
        have hsim := childCoeffs_sim (q := q) subs (recoverThreshold ty subs.length) hnt.1 hk hv
          subs.zipIdx (by
            rintro ⟨c, i⟩ hx
            have := (List.mem_zipIdx hx).2.1
            simpa using this)
        have hnodes := childCoeffs_nodes (q := q) (subs := subs)
          (threshold := recoverThreshold ty subs.length) (v := v') subs.zipIdx
        revert hsim hnodes
        generalize zrChildCoeffs q subs (recoverThreshold ty subs.length) v subs.zipIdx = X
        generalize childCoeffs subs (recoverThreshold ty subs.length) v' subs.zipIdx = Y
        intro hsim hnodes
        cases hsim with
        | throw e => exact .throw e
        | ub => exact .ub
        | abort => exact .abort
        | @ok a b hab =>
          simp only [Res.ok_bind]
          have he : a.isEmpty = b.isEmpty := by cases hab <;> rfl
          rw [he]
          refine ih _ _ _ o o' (List.rel_append (List.rel_reverse hab) hs) ?_ ho
          intro x hx
          rcases List.mem_append.mp hx with hx | hx
          · obtain ⟨⟨c, i⟩, hy, e⟩ := hnodes b rfl x (List.mem_reverse.mp hx)
            rw [← e]
            have := (List.mem_zipIdx hy).2.2
            exact hnt.2.mem (by rw [this]; exact List.getElem_mem _)
          · exact hn x (by simp [hx])

/-! ## The scan keeps the shape of the tree -/

theorem orLoop_same : ∀ (l : List (Nat × Nat)) (e : Nat) (r : Bool) (subs : List TNode),
    (orLoop l e r subs).2.map resetFlags = subs.map resetFlags
  | [], _, _, _ => rfl
  | (i, n) :: l, e, r, subs => by
    unfold orLoop
    split
    · split
      · exact orLoop_same l _ _ _
      · rw [orLoop_same l]
        apply List.ext_getElem?
        intro j
        rw [List.getElem?_map, List.getElem?_map, List.getElem?_modify]
        cases subs[j]? with
        | none => rfl
        | some c =>
          simp only [Option.map_some]
          split
          · simp [resetFlags_setMark]
          · rfl
    · exact orLoop_same l _ _ _

theorem determine_same (S : StdSort) {fl : Flags} {ty : Gate} {thr : Nat} {subs : List TNode} {u : TNode}
    (h : determine S fl ty thr subs = .ok u) : SameTree u (.gate fl ty thr subs) := by
  unfold determine at h
  cases ty with
  | and =>
    obtain ⟨⟨r, n⟩, _, h⟩ := (Res.bind_eq_ok _ _ _).mp h
    dsimp only at h
    split at h <;>
    · simp only [Res.ok.injEq] at h
      subst h
      simp [SameTree, resetFlags]
  | or =>
    have hs := orLoop_same (S.fn (orList subs 0)) 1 false subs
    dsimp only at h
    split at h
    · split at h
      · simp only [Res.ok.injEq] at h
        subst h
        simp [SameTree, resetFlags, resetFlagsL_eq, hs]
      · cases h
    · simp only [Res.ok.injEq] at h
      subst h
      simp [SameTree, resetFlags, resetFlagsL_eq, hs]
  | _ => simp only [Res.ok.injEq] at h; subst h; rfl

mutual
theorem scan_same (S : StdSort) (A : List Bytes) : ∀ {t u : TNode}, scan S A t = .ok u → SameTree u t
  | .leaf fl pre lab idx, u, h => by
    simp only [scan, Res.ok.injEq] at h
    subst h
    rfl
  | .gate fl ty thr subs, u, h => by
    simp only [scan] at h
    obtain ⟨subs', h1, h⟩ := (Res.bind_eq_ok _ _ _).mp h
    obtain ⟨v, h2, h⟩ := (Res.bind_eq_ok _ _ _).mp h
    simp only [Res.ok.injEq] at h
    subst h
    have h3 := determine_same S h2
    have h4 := scanL_same S A h1
    unfold SameTree setVisited at *
    rw [resetFlags_withFlags, h3]
    simp [resetFlags, resetFlagsL_eq, h4]
theorem scanL_same (S : StdSort) (A : List Bytes) : ∀ {ts us : List TNode}, scanL S A ts = .ok us →
    us.map resetFlags = ts.map resetFlags
  | [], us, h => by simp only [scanL, Res.ok.injEq] at h; subst h; rfl
  | c :: cs, us, h => by
    simp only [scanL] at h
    obtain ⟨cs', h1, h⟩ := (Res.bind_eq_ok _ _ _).mp h
    have h2 := scanL_same S A h1
    split at h
    · simp only [Res.ok.injEq] at h
      subst h
      simp [h2]
    · obtain ⟨c', h3, h⟩ := (Res.bind_eq_ok _ _ _).mp h
      simp only [Res.ok.injEq] at h
      subst h
      have h4 : resetFlags c' = resetFlags c := scan_same S A h3
      simp [h2, h4]
end

theorem NarrowL_iff (n : Nat) : ∀ l, NarrowL n l ↔ ∀ c ∈ l, Narrow n c
  | [] => by simp [NarrowL]
  | c :: cs => by simp [NarrowL, NarrowL_iff n cs]

theorem narrow_reset (n : Nat) : ∀ t, Narrow n (resetFlags t) ↔ Narrow n t := by
  apply TNode.ind
  · intro fl pre lab idx; simp [resetFlags, Narrow]
  · intro fl ty thr subs ih
    simp only [resetFlags, Narrow, NarrowL_iff, resetFlagsL_eq, List.length_map, List.mem_map,
      forall_exists_index, and_imp, forall_apply_eq_imp_iff₂]
    exact and_congr_right fun _ => forall₂_congr fun c hc => ih c hc

theorem SameTree.narrow {n : Nat} {t u : TNode} (h : SameTree t u) : Narrow n t ↔ Narrow n u := by
  rw [← narrow_reset n t, ← narrow_reset n u, h]

/-- A tree with fewer than `n` nodes is narrow. -/
theorem narrow_of_size (n : Nat) : ∀ t : TNode, t.size ≤ n → Narrow n t := by
  apply TNode.ind
  · intro fl pre lab idx _; simp [Narrow]
  · intro fl ty thr subs ih h
    have hlen : ∀ l : List TNode, l.length ≤ sizeL l := by
      intro l
      induction l with
      | nil => simp
      | cons c l ihl =>
        have : 0 < c.size := by cases c <;> simp [TNode.size]
        simp only [List.length_cons, sizeL]; omega
    have hmem : ∀ (l : List TNode) (c : TNode), c ∈ l → c.size ≤ sizeL l := by
      intro l c hc
      induction l with
      | nil => simp at hc
      | cons d l ihl =>
        rcases List.mem_cons.mp hc with rfl | hc
        · simp only [sizeL]; omega
        · have := ihl hc; simp only [sizeL]; omega
    simp only [TNode.size] at h
    refine ⟨by have := hlen subs; omega, (NarrowL_iff n subs).mpr fun c hc => ih c hc ?_⟩
    have := hmem subs c hc
    omega

theorem recoverCoefficients_sim (S : StdSort) (ndebug : Bool) (o : LSSS Zr) (o' : LSSS (ZMod q))
    (hc : o.attrCount = o'.attrCount) (policy : Option Policy)
    (hn : ∀ p t, policy = some p → p.root = some t → Narrow q t) (A : List Bytes) :
    Sim (fun a b => a.1 = b.1 ∧ ObjRel (Red q) a.2.1 b.2.1 ∧ a.2.2 = b.2.2)
      (zrRecoverCoefficients q S ndebug o policy A) (recoverCoefficients S ndebug o' policy A) := by
  cases policy with
  | none => exact .ub
  | some p =>
    cases hr : p.root with
    | none =>
      simp only [zrRecoverCoefficients, recoverCoefficients, hr]
      split
      · exact .ub
      · exact .abort
    | some t =>
      simp only [zrRecoverCoefficients, recoverCoefficients, hr]
      cases hsc : scan S A t with
      | throw e => exact .throw e
      | ub => exact .ub
      | abort => exact .abort
      | ok t' =>
        simp only [Res.ok_bind]
        have hnt : Narrow q t' := (scan_same S A hsc).narrow.mpr (hn p t rfl hr)
        split
        · refine Sim.bind (recoverLoop_sim (q := q) _ _ [(t', (1 : ZMod q))] false _
            { results := [], attrCount := if p.hasDup = true then p.dupCount else o'.attrCount } ?_ ?_ ?_) ?_
          · refine .cons ⟨rfl, ?_, setOrder_red (Fact.out : q.Prime).one_lt⟩ .nil
            simp [residue, ofNat, setOrder]
          · intro x hx
            simp only [List.mem_singleton] at hx
            subst hx
            exact hnt
          · exact ⟨by simp [LSSS.mapVal, mapRows, hc], by simp⟩
          · rintro ⟨r, a⟩ ⟨r', b⟩ ⟨h1, h2⟩
            dsimp only at h1 h2 ⊢
            subst h1
            split
            · exact .ok ⟨rfl, h2, rfl⟩
            · obtain ⟨rfl, _⟩ := h2
              exact .ok ⟨rfl, ⟨rfl, by simp⟩, rfl⟩
        · exact .ok ⟨rfl, ⟨by simp [LSSS.mapVal, mapRows, hc], by simp⟩, rfl⟩

/-! ## Recombination -/

theorem testStep_ok {co : SMap (Bytes × Zr)} (hco : ∀ r ∈ co, Red q r.2.2) {acc : Zr}
    (ha : OrdOk q acc) (sh : Bytes × Bytes × Zr) :
    ∃ r, zrTestStep co acc sh = .ok r ∧ (r = acc ∨ Red q r) ∧
      residue q r = match SMap.find sh.1 (mapRows (residue q) co) with
        | some c => residue q acc + c.2 * residue q sh.2.2
        | none => residue q acc := by
  unfold zrTestStep
  rw [mapRows_find]
  cases hf : SMap.find sh.1 co with
  | none => exact ⟨acc, rfl, .inl rfl, rfl⟩
  | some c =>
    have hc : Red q c.2 := by
      have hmem : ∀ m : SMap (Bytes × Zr), SMap.find sh.1 m = some c → (sh.1, c) ∈ m := by
        intro m
        induction m with
        | nil => intro h; cases h
        | cons x m ih =>
          obtain ⟨k, v⟩ := x
          intro h
          simp only [SMap.find] at h
          split at h
          · next e => simp only [Option.some.injEq] at h; subst h; rw [e]; simp
          · exact List.mem_cons_of_mem _ (ih h)
      exact hco _ (hmem co hf)
    obtain ⟨m, hm, hm1, hm2⟩ := mul_ok (q := q) (opOrder_left (y := sh.2.2) hc)
    obtain ⟨r, hr, hr1, hr2⟩ := add_ok (q := q) (opOrder_right ha hm1)
    refine ⟨r, ?_, .inr hr1, ?_⟩
    · simp only [hm, Res.ok_bind]; exact hr
    · simp only [Option.map_some]; rw [hr2, hm2]

theorem testLoop_ok {co : SMap (Bytes × Zr)} (hco : ∀ r ∈ co, Red q r.2.2) :
    ∀ (sh : SMap (Bytes × Zr)) (acc : Zr), OrdOk q acc →
    ∃ r, sh.foldlM (zrTestStep co) acc = .ok r ∧ (r = acc ∨ Red q r) ∧
      residue q r = (mapRows (residue q) sh).foldl (fun result s =>
        match SMap.find s.1 (mapRows (residue q) co) with
        | some c => result + c.2 * s.2.2
        | none => result) (residue q acc) := by
  intro sh
  induction sh with
  | nil => intro acc _; exact ⟨acc, rfl, .inl rfl, rfl⟩
  | cons s sh ih =>
    intro acc ha
    obtain ⟨r1, h1, h2, h3⟩ := testStep_ok (q := q) hco ha s
    have ha1 : OrdOk q r1 := by
      rcases h2 with rfl | h2
      · exact ha
      · exact h2.ordOk
    obtain ⟨r, h4, h5, h6⟩ := ih r1 ha1
    refine ⟨r, ?_, ?_, ?_⟩
    · rw [List.foldlM_cons, h1]; exact h4
    · rcases h5 with rfl | h5
      · exact h2
      · exact .inr h5
    · rw [h6, h3]; rfl

theorem testSecretRecovery_ok {co sh : SMap (Bytes × Zr)} (hco : ∀ r ∈ co, Red q r.2.2) :
    ∃ r, zrTestSecretRecovery co sh = .ok r ∧ (r = Zr.ofNat 0 ∨ Red q r) ∧
      residue q r = testSecretRecovery (mapRows (residue q) co) (mapRows (residue q) sh) := by
  obtain ⟨r, h1, h2, h3⟩ := testLoop_ok (q := q) hco sh (Zr.ofNat 0) (by intro h; cases h)
  refine ⟨r, h1, h2, ?_⟩
  have e : residue q (ofNat 0) = 0 := by simp [residue, ofNat]
  rw [h3, e]
  unfold testSecretRecovery
  congr 1
  funext result s
  cases SMap.find s.1 (mapRows (residue q) co) <;> rfl

end
end Abe
