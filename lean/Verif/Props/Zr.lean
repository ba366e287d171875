import Verif.Proof.Zr
import Verif.Props.LSSS
import Verif.Model.Container
/-!
# The `ZP` class and secret sharing over it (C97, C98)

Vocabulary (Verif/Proof/Zr.lean): `residue q z` is the residue class modulo `q` of the integer in `z`;
`OrdOk q z`: if the object has an order then it is `q`; `Red q z`: it has the order `q` and its value lies in
`[0, q)`; `Narrow q t`: no gate of `t` has `q` or more inputs (`q` has 254 bits or more in the library).
-/
set_option linter.unusedSimpArgs false
set_option linter.unusedSectionVars false
set_option autoImplicit false
namespace Abe
open LsssEx Zr

section
variable {q : Nat} [Fact q.Prime]

/-! ### C97 -/

/-- Sharing with `ZP` objects gives the shares computed in the field, row by row, with the same number of random
draws, and fails in the same way when it fails. The secret may be any integer and need not have an order. -/
theorem C97_share_is_field_computation (ndebug : Bool) (policy : Option Policy)
    (hn : ∀ p t, policy = some p → p.root = some t → Narrow q t) (elt : Zr) (he : OrdOk q elt)
    (tape : Nat → Int) :
    (do let x ← zrShareSecret q ndebug {} policy elt tape
        Res.ok (x.1.mapVal (residue q), x.2)) =
      shareSecret ndebug {} policy (residue q elt) (fun i => ((tape i : Int) : ZMod q)) := by
  have h := shareSecret_sim (q := q) (K := OrdOk q) (fun _ h => h.ordOk) (fun _ h => h) ndebug {} {} rfl
    policy hn elt he tape
  revert h
  generalize zrShareSecret q ndebug {} policy elt tape = X
  generalize shareSecret ndebug {} policy (residue q elt) (fun i => ((tape i : Int) : ZMod q)) = Y
  intro h
  cases h with
  | ok h => obtain ⟨⟨h1, _⟩, h2⟩ := h; simp only [Res.ok_bind, h1, h2]
  | throw e => rfl
  | ub => rfl
  | abort => rfl

/-- The same for the recovery of coefficients. -/
theorem C97_recover_is_field_computation (S : StdSort) (ndebug : Bool) (policy : Option Policy)
    (hn : ∀ p t, policy = some p → p.root = some t → Narrow q t) (A : List Bytes) :
    (do let x ← zrRecoverCoefficients q S ndebug {} policy A
        Res.ok (x.1, x.2.1.mapVal (residue q), x.2.2)) =
      recoverCoefficients S ndebug ({} : LSSS (ZMod q)) policy A := by
  have h := recoverCoefficients_sim (q := q) S ndebug {} {} rfl policy hn A
  revert h
  generalize zrRecoverCoefficients q S ndebug {} policy A = X
  generalize recoverCoefficients S ndebug ({} : LSSS (ZMod q)) policy A = Y
  intro h
  cases h with
  | ok h => obtain ⟨h1, ⟨h2, _⟩, h3⟩ := h; simp only [Res.ok_bind, h1, h2, h3]
  | throw e => rfl
  | ub => rfl
  | abort => rfl

/-- Sharing and recovery with `ZP` objects are inverse: for an authorised attribute set the recombined
object holds the secret reduced modulo the group order. -/
theorem C97_share_recover (S : StdSort) (p : Policy) (t : TNode) (A : List Bytes) (elt : Zr)
    (he : OrdOk q elt) (tape : Nat → Int) (hroot : p.root = some t) (hnar : Narrow q t) (hao : AndOr t)
    (hbin : BinAnd t) (hfresh : Fresh t) (hidx : IdxOkT (if p.hasDup then p.dupCount else []) t)
    (hlabels : ((leaves t).map (uniqueLabel (if p.hasDup then p.dupCount else []))).Nodup)
    (hsat : sat A t = true) :
    ∃ (shares coeffs : LSSS Zr) (n : Nat) (p' : Policy) (r : Zr),
      zrShareSecret q false {} (some p) elt tape = .ok (shares, n) ∧
      zrRecoverCoefficients q S false {} (some p) A = .ok (true, coeffs, p') ∧
      zrTestSecretRecovery coeffs.results shares.results = .ok r ∧
      r.val = elt.val % q := by
  obtain ⟨sh, co, n, p', h1, h2, h3⟩ := C01_share_recover_inverse (F := ZMod q) S p t A (residue q elt)
    (fun i => ((tape i : Int) : ZMod q)) hroot hao hbin hfresh hidx hlabels hsat
  have hn : ∀ p₁ t₁, some p = some p₁ → p₁.root = some t₁ → Narrow q t₁ := by
    intro p₁ t₁ e1 e2
    simp only [Option.some.injEq] at e1
    subst e1
    rw [hroot] at e2
    simp only [Option.some.injEq] at e2
    exact e2 ▸ hnar
  have s1 := shareSecret_sim (q := q) (K := OrdOk q) (fun _ h => h.ordOk) (fun _ h => h) false {} {} rfl
    (some p) hn elt he tape
  rw [h1] at s1
  obtain ⟨⟨shares, n'⟩, e1, ⟨e2, _⟩, e3⟩ := s1.ok_right
  have s2 := recoverCoefficients_sim (q := q) S false {} {} rfl (some p) hn A
  rw [h2] at s2
  obtain ⟨⟨b, coeffs, p''⟩, f1, f2, ⟨f3, f4⟩, f5⟩ := s2.ok_right
  dsimp only at e2 e3 f2 f3 f4 f5
  subst e3 f2 f5
  obtain ⟨r, g1, g2, g3⟩ := testSecretRecovery_ok (q := q) (sh := shares.results) f4
  refine ⟨shares, coeffs, n', p'', r, e1, f1, g1, ?_⟩
  have hcls : residue q r = residue q elt := by
    rw [g3, ← h3, ← e2, ← f3]; rfl
  have hrange : 0 ≤ r.val ∧ r.val < q := by
    rcases g2 with rfl | g2
    · exact ⟨le_refl _, qpos⟩
    · exact ⟨g2.2.2.1, g2.2.2.2⟩
  have hmod : r.val % q = elt.val % q := by
    have := (ZMod.intCast_eq_intCast_iff' r.val elt.val q).mp hcls
    exact this
  rw [Int.emod_eq_of_lt hrange.1 hrange.2] at hmod
  exact hmod

/-- `(a and b) or (a and c)` with `{a, c}`, order 11 and the secret 7 without an order. -/
example : OrdOk 11 (Zr.ofNat 7) ∧ Narrow 11 t1 ∧ sat [b!"a", b!"c"] t1 = true ∧ p1.root = some t1 :=
  ⟨(by intro h; cases h), narrow_of_size 11 t1 (by decide), by decide, rfl⟩

/-- If the secret has the group order and is reduced then so is every share (`ismember` holds). -/
theorem C97_shares_are_members (ndebug : Bool) (policy : Option Policy)
    (hn : ∀ p t, policy = some p → p.root = some t → Narrow q t) (elt : Zr) (he : Red q elt)
    (tape : Nat → Int) (o : LSSS Zr) (n : Nat)
    (h : zrShareSecret q ndebug {} policy elt tape = .ok (o, n)) :
    ∀ r ∈ o.results, r.2.2.ismember = true ∧ r.2.2.order = q := by
  have s := shareSecret_sim (q := q) (K := Red q) (fun _ h => h) (fun _ h => h.ordOk) ndebug {} {} rfl
    policy hn elt he tape
  rw [h] at s
  obtain ⟨b, _, ⟨_, hr⟩, _⟩ := s.ok_left
  intro r hm
  obtain ⟨_, h2, h3, h4⟩ := hr r hm
  refine ⟨?_, h2⟩
  simp [Zr.ismember, h2, h3, h4]

example : Red 11 ((Zr.ofNat 7).setOrder 11) := setOrder_red (by norm_num)

/-- The rows of a sharing that belong to attributes in `A`. -/
def zrView (A : List Bytes) (rows : SMap (Bytes × Zr)) : SMap (Bytes × Zr) :=
  rows.filter fun r => decide (r.2.1 ∈ A)

/-- `shareSecret` with the random integers `tape` shows the holder of `A` the rows `v`. -/
def ZrShows (q : Nat) (p : Policy) (A : List Bytes) (elt : Zr) (tape : Nat → Int) (v : SMap (Bytes × Zr)) : Prop :=
  ∃ (o : LSSS Zr) (n : Nat), zrShareSecret q false {} (some p) elt tape = .ok (o, n) ∧ zrView A o.results = v

/-- A tape of `n` integers in `[0, q)`, continued with zeros. -/
def zrTape {n : Nat} (f : Fin n → Fin q) : Nat → Int := fun i => if h : i < n then ((f ⟨i, h⟩ : Nat) : Int) else 0

theorem mapRows_view (A : List Bytes) (m : SMap (Bytes × Zr)) :
    mapRows (residue q) (zrView A m) = viewOf A (mapRows (residue q) m) := by
  unfold mapRows zrView viewOf
  rw [List.filter_map]
  rfl

theorem red_inj {x y : Zr} (hx : Red q x) (hy : Red q y) (h : residue q x = residue q y) : x = y := by
  obtain ⟨v, o, s⟩ := x
  obtain ⟨v', o', s'⟩ := y
  obtain ⟨h1, h2, h3, h4⟩ := hx
  obtain ⟨k1, k2, k3, k4⟩ := hy
  dsimp only at *
  have hm := (ZMod.intCast_eq_intCast_iff' v v' q).mp h
  rw [Int.emod_eq_of_lt h3 h4, Int.emod_eq_of_lt k3 k4] at hm
  rw [hm, h1, h2, k1, k2]

theorem mapRows_inj : ∀ {m m' : SMap (Bytes × Zr)}, (∀ r ∈ m, Red q r.2.2) → (∀ r ∈ m', Red q r.2.2) →
    mapRows (residue q) m = mapRows (residue q) m' → m = m' := by
  intro m
  induction m with
  | nil => intro m' _ _ h; cases m' with
    | nil => rfl
    | cons _ _ => simp [mapRows] at h
  | cons r m ih =>
    intro m' h1 h2 h
    cases m' with
    | nil => simp [mapRows] at h
    | cons r' m' =>
      obtain ⟨k, l, v⟩ := r
      obtain ⟨k', l', v'⟩ := r'
      simp only [mapRows, List.map_cons, List.cons.injEq, Prod.mk.injEq] at h
      obtain ⟨⟨e1, e2, e3⟩, e4⟩ := h
      have hv : v = v' := red_inj (h1 (k, l, v) (by simp)) (h2 (k', l', v') (by simp)) e3
      rw [e1, e2, hv]
      rw [ih (fun r hr => h1 r (by simp [hr])) (fun r hr => h2 r (by simp [hr])) e4]

theorem zrShows_iff (p : Policy) (t : TNode) (hroot : p.root = some t) (hnar : Narrow q t) (A : List Bytes)
    (elt : Zr) (he : Red q elt) (tape : Nat → Int) (v : SMap (Bytes × Zr)) :
    ZrShows q p A elt tape v ↔
      Shows p A (residue q elt) (fun i => ((tape i : Int) : ZMod q)) (mapRows (residue q) v) ∧
        ∀ r ∈ v, Red q r.2.2 := by
  have hn : ∀ p₁ t₁, some p = some p₁ → p₁.root = some t₁ → Narrow q t₁ := by
    intro p₁ t₁ e1 e2
    simp only [Option.some.injEq] at e1
    subst e1
    rw [hroot] at e2
    simp only [Option.some.injEq] at e2
    exact e2 ▸ hnar
  have s := shareSecret_sim (q := q) (K := Red q) (fun _ h => h) (fun _ h => h.ordOk) false {} {} rfl
    (some p) hn elt he tape
  constructor
  · rintro ⟨o, n, h1, rfl⟩
    rw [h1] at s
    obtain ⟨⟨b, n'⟩, e1, ⟨e2, e3⟩, e4⟩ := s.ok_left
    refine ⟨⟨b, n', e1, ?_⟩, fun r hr => e3 r (List.mem_of_mem_filter hr)⟩
    dsimp only at e2
    rw [mapRows_view, ← e2]
    rfl
  · rintro ⟨⟨b, n', h1, h2⟩, hv⟩
    rw [h1] at s
    obtain ⟨⟨o, n⟩, e1, ⟨e2, e3⟩, e4⟩ := s.ok_right
    refine ⟨o, n, e1, ?_⟩
    dsimp only at e2 e3
    refine mapRows_inj (fun r hr => e3 r (List.mem_of_mem_filter hr)) hv ?_
    rw [← h2, mapRows_view, ← e2]
    rfl

/-- Tapes of integers below `q` and tapes of field elements. -/
def tapeEquiv (q n : Nat) [NeZero q] : (Fin n → Fin q) ≃ (Fin n → ZMod q) :=
  Equiv.arrowCongr (Equiv.refl _)
    { toFun := fun a => ((a : Nat) : ZMod q)
      invFun := fun z => ⟨z.val, ZMod.val_lt z⟩
      left_inv := fun a => Fin.ext (ZMod.val_cast_of_lt a.2)
      right_inv := fun z => ZMod.natCast_zmod_val z }

/-- Perfect privacy at the level of the objects: an attribute set that does not satisfy the policy sees every
collection of share objects for equally many choices of the random integers, whatever the secret. -/
theorem C97_views_hide_secret (p : Policy) (t : TNode) (A : List Bytes) (hroot : p.root = some t)
    (hpos : PosGates t) (hidx : ∀ l ∈ leaves t, l.idx.isSome) (hsize : t.size < q)
    (hunsat : sat A t = false) (n : Nat)
    (hn : ∀ elt tape o k, zrShareSecret q false {} (some p) elt tape = .ok (o, k) → k ≤ n)
    (x y : Zr) (hx : Red q x) (hy : Red q y) (v : SMap (Bytes × Zr)) :
    Nat.card { f : Fin n → Fin q // ZrShows q p A x (zrTape f) v } =
      Nat.card { f : Fin n → Fin q // ZrShows q p A y (zrTape f) v } := by
  have : NeZero q := ⟨(Fact.out : q.Prime).ne_zero⟩
  have hnar : Narrow q t := narrow_of_size q t (by omega)
  by_cases hv : ∀ r ∈ v, Red q r.2.2
  · have hcard : ∀ z : Zr, Red q z → Nat.card { f : Fin n → Fin q // ZrShows q p A z (zrTape f) v } =
        Nat.card { f : Fin n → ZMod q // Shows p A (residue q z) (tapeOf f) (mapRows (residue q) v) } := by
      intro z hz
      refine Nat.card_congr ((tapeEquiv q n).subtypeEquiv fun f => ?_)
      rw [zrShows_iff p t hroot hnar A z hz]
      have e : (fun i => ((zrTape f i : Int) : ZMod q)) = tapeOf (tapeEquiv q n f) := by
        funext i
        unfold zrTape tapeOf
        by_cases hi : i < n
        · rw [dif_pos hi, dif_pos hi]
          simp [tapeEquiv]
        · rw [dif_neg hi, dif_neg hi]; simp
      rw [e]
      exact ⟨fun h => h.1, fun h => ⟨h, hv⟩⟩
    rw [hcard x hx, hcard y hy]
    refine C06_unsatisfying_views_hide_secret p t A hroot hpos hidx ?_ hunsat n ?_ _ _ _
    · intro k h0 hk h
      have := (ZMod.natCast_eq_zero_iff k q).mp h
      have := Nat.le_of_dvd h0 this
      omega
    · intro s tape o k h
      have hn' : ∀ p₁ t₁, some p = some p₁ → p₁.root = some t₁ → Narrow q t₁ := by
        intro p₁ t₁ e1 e2
        simp only [Option.some.injEq] at e1
        subst e1
        rw [hroot] at e2
        simp only [Option.some.injEq] at e2
        exact e2 ▸ hnar
      let elt : Zr := (Zr.ofNat s.val).setOrder q
      have he : Red q elt := setOrder_red (ZMod.val_lt s)
      have hs : residue q elt = s := by simp [elt, residue, ofNat, Zr.setOrder]
      have ht : (fun i => (((tape i).val : Int) : ZMod q)) = tape := by funext i; simp
      have sm := shareSecret_sim (q := q) (K := Red q) (fun _ h => h) (fun _ h => h.ordOk) false {} {} rfl
        (some p) hn' elt he (fun i => ((tape i).val : Int))
      rw [hs, ht, h] at sm
      obtain ⟨⟨o', k'⟩, e1, _, e2⟩ := sm.ok_right
      have := hn _ _ _ _ e1
      dsimp only at e2
      omega
  · have hempty : ∀ z : Zr, Red q z → IsEmpty { f : Fin n → Fin q // ZrShows q p A z (zrTape f) v } := by
      intro z hz
      refine ⟨fun f => hv ?_⟩
      exact ((zrShows_iff p t hroot hnar A z hz _ v).mp f.2).2
    have := hempty x hx
    have := hempty y hy
    simp

end

/-- A secret that was not reduced is not found equal to the recovered value: the policy `a`, the group order
11 and the secret 18 (`ZP(char*, bignum_t)` does not reduce): 7 is recovered and `operator==` compares the
integers. -/
theorem C97_unreduced_secret_violated (S : StdSort) :
    ∃ (shares coeffs : LSSS Zr) (n : Nat) (p' : Policy) (r : Zr),
      let p : Policy := { root := some (lf b!"a" 0) }
      let elt := Zr.ofHex 18 11
      zrShareSecret 11 false {} (some p) elt (fun _ => 0) = .ok (shares, n) ∧
      zrRecoverCoefficients 11 S false {} (some p) [b!"a"] = .ok (true, coeffs, p') ∧
      zrTestSecretRecovery coeffs.results shares.results = .ok r ∧ Zr.eq r elt = false := by
  refine ⟨_, _, _, _, _, rfl, rfl, rfl, rfl⟩

/-! ### C98 -/

/-- The operators compute in the residue ring of the order taken from the left operand, or from the right operand
if the left one has none, and return a reduced value with that order. -/
theorem C98_ring_operations (m : Nat) (hm : 0 < m) (x y : Zr) (hxy : opOrder x y = m) :
    (∃ r, x.add y = .ok r ∧ Red m r ∧ residue m r = residue m x + residue m y) ∧
    (∃ r, x.sub y = .ok r ∧ Red m r ∧ residue m r = residue m x - residue m y) ∧
    (∃ r, x.mul y = .ok r ∧ Red m r ∧ residue m r = residue m x * residue m y) ∧
    (0 ≤ y.val → ∃ r, x.pow y = .ok r ∧ Red m r ∧ residue m r = residue m x ^ y.val.toNat) := by
  have hm' : (0 : Int) < (m : Int) := by exact_mod_cast hm
  have hred : ∀ a : Int, Red m { val := a % m, order := m, isSet := true } := fun a =>
    ⟨rfl, rfl, Int.emod_nonneg _ (ne_of_gt hm'), Int.emod_lt_of_pos _ hm'⟩
  have hres : ∀ a : Int, residue m { val := a % m, order := m, isSet := true } = (a : ZMod m) := by
    intro a
    show ((a % m : Int) : ZMod m) = a
    rw [ZMod.intCast_eq_intCast_iff_dvd_sub]
    exact ⟨a / m, by have := Int.mul_ediv_add_emod a m; omega⟩
  refine ⟨⟨_, ?_, hred (x.val + y.val), ?_⟩, ⟨_, ?_, hred (x.val - y.val), ?_⟩,
    ⟨_, ?_, hred (x.val * y.val), ?_⟩, fun h0 => ⟨_, ?_, hred (x.val ^ y.val.toNat), ?_⟩⟩
  · unfold Zr.add bnMod; rw [hxy, if_pos hm']; rfl
  · rw [hres]; simp [residue]
  · unfold Zr.sub bnMod; rw [hxy, if_pos hm']; rfl
  · rw [hres]; simp [residue]
  · unfold Zr.mul bnMod; rw [hxy, if_pos hm']; rfl
  · rw [hres]; simp [residue]
  · unfold Zr.pow bnExp; rw [hxy, if_pos ⟨hm', h0⟩]; rfl
  · rw [hres]; simp [residue]

example : opOrder (Zr.ofNat 5) (Zr.ofHex 9 11) = (11 : Nat) := rfl

/-- Division by a reduced object modulo a prime: the quotient in the field, and the process ends exactly when the
divisor is zero. -/
theorem C98_division (q : Nat) [Fact q.Prime] (x y : Zr) (hx : OrdOk q x) (hy : Red q y) :
    (residue q y = 0 → x.div y = .abort) ∧
    (residue q y ≠ 0 → ∃ r, x.div y = .ok r ∧ Red q r ∧ residue q r = residue q x / residue q y) := by
  constructor
  · intro h
    unfold Zr.div
    rw [if_pos ((red_val_zero hy).mpr h)]
  · intro h
    exact div_ok (opOrder_right hx hy) (fun e => h ((red_val_zero hy).mp e)) h

example : OrdOk 11 (Zr.ofNat 5) ∧ Red 11 ((Zr.ofNat 3).setOrder 11) :=
  ⟨(by intro h; cases h), setOrder_red (by norm_num)⟩

/-- On reduced objects of the same order the comparison operators compare residue classes. -/
theorem C98_equality_partial (q : Nat) [Fact q.Prime] (x y : Zr) (hx : Red q x) (hy : Red q y) :
    Zr.eq x y = true ↔ residue q x = residue q y := by
  unfold Zr.eq
  rw [decide_eq_true_iff]
  constructor
  · intro h; unfold residue; rw [h]
  · intro h; rw [red_inj hx hy h]

/-- Negation, inversion, reading bytes and comparison compute in the field, for reduced objects. -/
theorem C98_unary (q : Nat) [Fact q.Prime] (x y : Zr) (v : Int) (hx : Red q x) (hy : Red q y) :
    (∃ r, x.neg = .ok r ∧ Red q r ∧ residue q r = - residue q x) ∧
    (residue q x ≠ 0 → ∃ r, x.multInverse = .ok r ∧ Red q r ∧ residue q r = (residue q x)⁻¹) ∧
    (residue q x = 0 → x.multInverse = .ub) ∧
    (∃ r, Zr.ofBin v q = .ok r ∧ Red q r ∧ residue q r = (v : ZMod q)) ∧
    (Zr.lt x y = true ↔ (residue q x).val < (residue q y).val) := by
  have hq : (0 : Int) < q := by exact_mod_cast (Fact.out : q.Prime).pos
  have hval : ∀ z : Zr, Red q z → ((residue q z).val : Int) = z.val := by
    intro z hz
    unfold residue
    rw [ZMod.val_intCast, Int.emod_eq_of_lt hz.2.2.1 hz.2.2.2]
  have hmk : ∀ a : Int, Red q { x with val := a % q } := fun a =>
    ⟨hx.1, hx.2.1, Int.emod_nonneg _ (ne_of_gt hq), Int.emod_lt_of_pos _ hq⟩
  have hres : ∀ a : Int, residue q { x with val := a % q } = (a : ZMod q) := by
    intro a
    show ((a % q : Int) : ZMod q) = a
    rw [ZMod.intCast_eq_intCast_iff_dvd_sub]
    exact ⟨a / q, by have := Int.mul_ediv_add_emod a q; omega⟩
  refine ⟨⟨{ x with val := (-x.val) % q }, ?_, hmk _, ?_⟩, ?_, ?_, ⟨_, ?_, red_mk v, residue_mk v⟩, ?_⟩
  · unfold Zr.neg; rw [hx.2.1, bnMod_q]; rfl
  · rw [hres]; push_cast; rfl
  · intro h
    obtain ⟨i, hi, hi2⟩ := bnModInv_ok (q := q) (a := x.val) h
    have hiv : i % q = i := by
      unfold bnModInv at hi
      split at hi
      · cases hi; exact Int.emod_emod_of_dvd _ (dvd_refl _)
      · cases hi
    refine ⟨{ x with val := i % q }, ?_, hmk _, ?_⟩
    · unfold Zr.multInverse; rw [if_pos hx.1, hx.2.1, hi, hiv]; rfl
    · rw [hres, hi2]; rfl
  · intro h
    have h0 : x.val = 0 := (red_val_zero hx).mpr h
    unfold Zr.multInverse
    rw [if_pos hx.1, hx.2.1, h0]
    unfold bnModInv
    have h1 : ¬ Int.gcd 0 q = 1 := by
      simp [(Fact.out : q.Prime).ne_one]
    rw [if_neg (fun hh => h1 hh.2)]
    rfl
  · unfold Zr.ofBin; rw [bnMod_q]; rfl
  · unfold Zr.lt
    rw [decide_eq_true_iff, ← hval x hx, ← hval y hy]
    exact Int.ofNat_lt

/-- Without an order inversion leaves the object as it is. -/
theorem C98_inverse_no_order_violated (x : Zr) (h : x.isSet = false) : x.multInverse = .ok x := by
  unfold Zr.multInverse; rw [h]; rfl

example : (Zr.ofNat 2).isSet = false := rfl

/-- Sums of operands with different orders depend on the side. -/
theorem C98_mixed_orders_violated :
    ∃ (x y a b : Zr), x.ismember = true ∧ y.ismember = true ∧ x.add y = .ok a ∧ y.add x = .ok b ∧
      Zr.eq a b = false :=
  ⟨Zr.ofHex 5 7, Zr.ofHex 6 11, ⟨4, 7, true⟩, ⟨0, 11, true⟩, by decide, by decide, rfl, rfl, by decide⟩

/-- Two objects without an order (for instance `ZP(2) + ZP(3)`, or `setFrom` on a new object) are reduced modulo
zero, whatever the values. -/
theorem C98_no_order_violated (x y : Zr) (hx : x.isSet = false) (h0 : y.order = 0) :
    x.add y = .ub ∧ x.sub y = .ub ∧ x.mul y = .ub := by
  have e : opOrder x y = 0 := by simp [opOrder, hx, h0]
  refine ⟨?_, ?_, ?_⟩
  · unfold Zr.add bnMod; rw [e]; rfl
  · unfold Zr.sub bnMod; rw [e]; rfl
  · unfold Zr.mul bnMod; rw [e]; rfl

example : (Zr.ofNat 2).isSet = false ∧ (Zr.ofNat 3).order = 0 := ⟨rfl, rfl⟩

/-- `setFrom` on a new object never works: the order of its argument is not copied. -/
theorem C98_setFrom_new_object_violated (z : Zr) (index : Nat) : Zr.setFrom {} z index = .ub := by
  unfold Zr.setFrom Zr.add bnMod; rfl

/-- An object whose value is the order itself is zero in the field, but it is neither found equal to zero nor
caught by the test for division by zero; no inverse exists and the result is unspecified. -/
theorem C98_value_equal_to_order_violated (q : Nat) [Fact q.Prime] (x : Zr) (hx : OrdOk q x) :
    let y := Zr.ofHex q q
    residue q y = 0 ∧ Zr.eq y ((Zr.ofNat 0).setOrder q) = false ∧ x.div y = .ub ∧ y.ismember = false := by
  have hp : q.Prime := Fact.out
  have h0 : ((q : Nat) : Int) ≠ 0 := by exact_mod_cast hp.ne_zero
  refine ⟨by simp [residue, Zr.ofHex], ?_, ?_, by simp [Zr.ismember, Zr.ofHex]⟩
  · simp [Zr.eq, Zr.ofHex, Zr.ofNat, Zr.setOrder, h0]
    exact hp.ne_zero
  · have e : opOrder x (Zr.ofHex q q) = q := by
      unfold opOrder
      split
      · next h => exact hx h
      · rfl
    unfold Zr.div bnModInv
    rw [if_neg (by simpa [Zr.ofHex] using hp.ne_zero), e]
    have hne : ¬ ((0 : Int) < q ∧ Int.gcd (Zr.ofHex q q).val q = 1) := by
      rintro ⟨_, h⟩
      simp [Zr.ofHex] at h
      exact hp.one_lt.ne' h
    rw [if_neg hne]
    rfl

/-- Such an object comes out of `deserialize`, which reduces only values greater than the order: the bytes of the
number 11 read with the order 11 give 11. -/
theorem C98_deserialize_order_violated : zpDeserialize 11 (zpSerialize 11) = .ok 11 := by decide +kernel

/-- Shifting left leaves the field. -/
theorem C98_shift_violated : ∃ x : Zr, x.ismember = true ∧ (x.shl 1).ismember = false :=
  ⟨Zr.ofHex 6 11, by decide, by decide⟩

/-- The order of an object is set once: the first call decides, later calls and draws do not change it. -/
theorem C98_order_set_once (z : Zr) (a b draw : Int) :
    (z.isSet = false → z.setOrder a = { z with order := a, isSet := true }) ∧
    (z.setOrder a).setOrder b = z.setOrder a ∧
    ((z.setOrder a).setRandom b draw) = { z.setOrder a with val := draw } := by
  unfold Zr.setRandom Zr.setOrder
  cases h : z.isSet <;> simp [h]

/-- A random value drawn below the order in force (that of the object, or the argument if it has none) makes the object
a member with this order. -/
theorem C98_random_is_member (z : Zr) (o draw : Int) (hd : 0 ≤ draw ∧ draw < if z.isSet then z.order else o) :
    (z.setRandom o draw).ismember = true ∧ (z.setRandom o draw).val = draw ∧ (z.setRandom o draw).isSet = true ∧
      (z.setRandom o draw).order = if z.isSet then z.order else o := by
  unfold Zr.setRandom Zr.setOrder Zr.ismember
  cases h : z.isSet <;> simp [h] at hd ⊢ <;> exact ⟨hd.2, hd.1⟩

example : (0 : Int) ≤ 7 ∧ (7 : Int) < if (Zr.ofNat 3).isSet then (Zr.ofNat 3).order else 11 := by decide

/-- `setRandom(ZP &)` makes a new object a member if the bound has no order itself. -/
theorem C98_random_below_zp_partial (z o : Zr) (draw : Int) (hz : z.isSet = false) (ho : o.isSet = false)
    (hd : 0 ≤ draw ∧ draw < o.val) :
    (z.setRandomZP o draw).ismember = true ∧ (z.setRandomZP o draw).val = draw ∧
      (z.setRandomZP o draw).order = o.val := by
  unfold Zr.setRandomZP Zr.ismember
  simp [hz, ho, hd]

example : (({} : Zr).isSet = false ∧ (Zr.ofNat 11).isSet = false) ∧ (0 : Int) ≤ 7 ∧ (7 : Int) < (Zr.ofNat 11).val := by
  decide

/-- With a bound that has an order `setRandom(ZP &)` draws nothing: the object keeps its value, so that a new object
stays zero. -/
theorem C98_random_bound_with_order_violated (z o : Zr) (draw : Int) (ho : o.isSet = true) :
    z.setRandomZP o draw = z := by
  unfold Zr.setRandomZP; rw [if_pos ho]

example : (Zr.ofHex 9 11).isSet = true := rfl

/-- In an object that has an order `setRandom(ZP &)` draws below the argument instead: every value between the order
and the argument leaves the field. -/
theorem C98_random_other_order_violated (z o : Zr) (draw : Int) (hz : z.isSet = true) (ho : o.isSet = false)
    (hd : z.order ≤ draw ∧ draw < o.val) : (z.setRandomZP o draw).ismember = false := by
  unfold Zr.setRandomZP Zr.ismember
  simp [hz, ho]
  intro h
  omega

example : (Zr.ofHex 0 5).isSet = true ∧ (Zr.ofNat 11).isSet = false ∧ (Zr.ofHex 0 5).order ≤ 7 ∧
    (7 : Int) < (Zr.ofNat 11).val := by decide

/-- `setPrime` sets the value of an object without an order and leaves the others alone. -/
theorem C98_prime (z : Zr) (prime : Int) :
    (z.setPrime prime).order = z.order ∧ (z.setPrime prime).isSet = z.isSet ∧
      (z.setPrime prime).val = if z.isSet then z.val else prime := by
  unfold Zr.setPrime
  cases h : z.isSet <;> simp [h]

/-- The six comparison operators are those of the integers held by the objects. -/
theorem C98_comparisons (x y : Zr) :
    (Zr.lt x y = true ↔ x.val < y.val) ∧ (Zr.le x y = true ↔ x.val ≤ y.val) ∧ (Zr.gt x y = true ↔ y.val < x.val) ∧
      (Zr.ge x y = true ↔ y.val ≤ x.val) ∧ (Zr.eq x y = true ↔ x.val = y.val) ∧
      (Zr.ne x y = true ↔ x.val ≠ y.val) := by
  unfold Zr.lt Zr.le Zr.gt Zr.ge Zr.eq Zr.ne Zr.cmp
  refine ⟨decide_eq_true_iff, ?_, ?_, ?_, decide_eq_true_iff, ?_⟩ <;> rw [decide_eq_true_iff] <;> split <;>
    (try split) <;> constructor <;> intro h <;> omega

/-- Shifting right keeps members in the field and undoes shifting left. -/
theorem C98_shift_right (x : Zr) (b : Nat) :
    (x.ismember = true → (x.shr b).ismember = true ∧ (x.shr b).val = x.val / 2 ^ b) ∧ (x.shl b).shr b = x := by
  have hp : (0 : Int) < 2 ^ b := by positivity
  constructor
  · intro h
    unfold Zr.ismember at h
    simp only [Bool.and_eq_true, decide_eq_true_iff] at h
    have e : x.val.tdiv (2 ^ b) = x.val / 2 ^ b := Int.tdiv_eq_ediv_of_nonneg h.2
    unfold Zr.shr Zr.ismember
    simp only [Bool.and_eq_true, decide_eq_true_iff]
    rw [e]
    exact ⟨⟨lt_of_le_of_lt (Int.ediv_le_self _ h.2) h.1, Int.ediv_nonneg h.2 (le_of_lt hp)⟩, rfl⟩
  · unfold Zr.shr Zr.shl
    simp only [Int.mul_tdiv_cancel _ (ne_of_gt hp)]

example : (Zr.ofHex 6 11).ismember = true := by decide

/-- The compound assignments leave the reduced sum and product in the left operand, with its order. -/
theorem C98_compound_assignment (m : Nat) (hm : 0 < m) (x y : Zr) (hx : x.isSet = true) (ho : x.order = m) :
    (∃ r, x.addAssign y = .ok r ∧ Red m r ∧ residue m r = residue m x + residue m y) ∧
    (∃ r, x.mulAssign y = .ok r ∧ Red m r ∧ residue m r = residue m x * residue m y) := by
  have h : opOrder x y = m := by unfold opOrder; rw [if_pos hx]; exact ho
  exact ⟨(C98_ring_operations m hm x y h).1, (C98_ring_operations m hm x y h).2.2.1⟩

example : (Zr.ofHex 9 11).isSet = true ∧ (Zr.ofHex 9 11).order = (11 : Nat) := ⟨rfl, rfl⟩

end Abe
