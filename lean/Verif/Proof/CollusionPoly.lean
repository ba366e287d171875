import Verif.Proof.CollusionViews
import Mathlib.Algebra.MvPolynomial.SchwartzZippel
/-!
# Attacks as polynomials

The exponent of an attack's output is a polynomial of small degree in the random values.
-/
set_option linter.unusedSimpArgs false
set_option linter.unusedSectionVars false
set_option autoImplicit false
namespace Abe.Scheme
variable {G1 G2 GT : Type} {q : Nat} [Fact q.Prime]
variable [AddCommGroup G1] [Module (ZMod q) G1] [AddCommGroup G2] [Module (ZMod q) G2] [AddCommGroup GT]
  [Module (ZMod q) GT]
variable {m T R n : Nat} {ds : Finset Bytes}

open MvPolynomial

/-- `f` is a polynomial of degree at most `d` in the named coins. -/
def PolyFn (m T R n : Nat) (ds : Finset Bytes) (d : Nat) (f : Fn q) : Prop :=
  ∃ P : MvPolynomial (CoinIx m T R n ds) (ZMod q), P.totalDegree ≤ d ∧ ∀ x, eval x P = f (Coins.of x)

theorem sum_unit_vectors {ι : Type} [Fintype ι] [DecidableEq ι] (x : ι → ZMod q) :
    x = ∑ i, x i • (Pi.single i 1 : ι → ZMod q) := by
  funext j
  simp [Finset.sum_apply, Pi.single_apply]

namespace PolyFn
variable {d e : Nat} {f g : Fn q}

theorem mono (h : PolyFn m T R n ds d f) (hde : d ≤ e) : PolyFn m T R n ds e f := by
  obtain ⟨P, h1, h2⟩ := h
  exact ⟨P, h1.trans hde, h2⟩

theorem const (a : ZMod q) : PolyFn m T R n ds d (fun _ => a) := ⟨C a, by simp, by simp⟩

theorem add (hf : PolyFn m T R n ds d f) (hg : PolyFn m T R n ds d g) : PolyFn m T R n ds d (f + g) := by
  obtain ⟨P, h1, h2⟩ := hf
  obtain ⟨Q, h3, h4⟩ := hg
  exact ⟨P + Q, (totalDegree_add _ _).trans (max_le h1 h3), by simp [h2, h4]⟩

theorem mul (hf : PolyFn m T R n ds d f) (hg : PolyFn m T R n ds e g) : PolyFn m T R n ds (d + e) (f * g) := by
  obtain ⟨P, h1, h2⟩ := hf
  obtain ⟨Q, h3, h4⟩ := hg
  exact ⟨P * Q, (totalDegree_mul _ _).trans (Nat.add_le_add h1 h3), by simp [h2, h4]⟩

theorem smul (a : ZMod q) (hf : PolyFn m T R n ds d f) : PolyFn m T R n ds d (a • f) := by
  obtain ⟨P, h1, h2⟩ := hf
  refine ⟨C a * P, (totalDegree_mul _ _).trans (by simpa using h1), by simp [h2]⟩

theorem sum : ∀ (l : List (Fn q)), (∀ f ∈ l, PolyFn m T R n ds d f) → PolyFn m T R n ds d l.sum
  | [], _ => const 0
  | f :: l, h => by
    rw [List.sum_cons]
    exact add (h f (by simp)) (sum l fun g hg => h g (by simp [hg]))

theorem var (i : CoinIx m T R n ds) {f : Fn q} (h : ∀ x : CoinIx m T R n ds → ZMod q, f (Coins.of x) = x i) :
    PolyFn m T R n ds 1 f := ⟨X i, by simp, by simp [h]⟩

theorem alpha : PolyFn m T R n ds 1 (fun c : Coins q => c.alpha) := var (.inl 0) fun _ => rfl
theorem a : PolyFn m T R n ds 1 (fun c : Coins q => c.a) := var (.inl 1) fun _ => rfl
theorem s : PolyFn m T R n ds 1 (fun c : Coins q => c.s) := var (.inl 2) fun _ => rfl

theorem r (i j : Nat) : PolyFn m T R n ds 1 (fun c : Coins q => c.r i j) := by
  by_cases h : i < m ∧ j < R
  · exact var (.inr (.inr (.inl (⟨i, h.1⟩, ⟨j, h.2⟩)))) fun x => by simp [Coins.of, h]
  · exact ⟨0, by simp, fun x => by simp [Coins.of, h]⟩

theorem t (i : Nat) : PolyFn m T R n ds 1 (fun c : Coins q => c.t i) := by
  by_cases h : i < n
  · exact var (.inr (.inr (.inr (.inl ⟨i, h⟩)))) fun x => by simp [Coins.of, h]
  · exact ⟨0, by simp, fun x => by simp [Coins.of, h]⟩

theorem hh (d : Bytes) : PolyFn m T R n ds 1 (fun c : Coins q => c.h d) := by
  by_cases h : d ∈ ds
  · exact var (.inr (.inr (.inr (.inr ⟨d, h⟩)))) fun x => by simp [Coins.of, h]
  · exact ⟨0, by simp, fun x => by simp [Coins.of, h]⟩

/-- An additive function of the coins is linear. -/
theorem of_add {f : (CoinIx m T R n ds → ZMod q) → ZMod q} (h : ∀ x y, f (x + y) = f x + f y) :
    ∃ P : MvPolynomial (CoinIx m T R n ds) (ZMod q), P.totalDegree ≤ 1 ∧ ∀ x, eval x P = f x := by
  let φ : (CoinIx m T R n ds → ZMod q) →+ ZMod q := ⟨⟨f, by simpa using h 0 0⟩, h⟩
  have hs : ∀ (a : ZMod q) x, f (a • x) = a * f x := by
    intro a x
    have := map_nsmul φ a.val x
    have e : a.val • x = a • x := by
      rw [← Nat.cast_smul_eq_nsmul (ZMod q), ZMod.natCast_zmod_val]
    rw [e] at this
    have e2 : a.val • f x = a * f x := by
      rw [← Nat.cast_smul_eq_nsmul (ZMod q), ZMod.natCast_zmod_val, smul_eq_mul]
    exact this.trans e2
  classical
  refine ⟨∑ i, C (f (Pi.single i 1)) * X i, ?_, ?_⟩
  · apply totalDegree_finsetSum_le
    intro i _
    refine (totalDegree_mul _ _).trans ?_
    simp
  · intro x
    simp only [map_sum, map_mul, eval_C, eval_X]
    have hx : x = ∑ i, x i • (Pi.single i 1 : CoinIx m T R n ds → ZMod q) := sum_unit_vectors x
    have : f x = ∑ i, f (x i • (Pi.single i 1 : CoinIx m T R n ds → ZMod q)) := by
      conv_lhs => rw [hx]
      exact map_sum φ _ _
    rw [this]
    apply Finset.sum_congr rfl
    intro i _
    rw [hs, mul_comm]

/-- A share is linear. -/
theorem share {row : Row q} (hadd : ∀ s d (tape δ : Nat → ZMod q),
    row.2 (s + d) (fun i => tape i + δ i) = row.2 s tape + row.2 d δ) (k : Nat) :
    PolyFn m T R n ds 1 (fun c : Coins q => row.2 c.s (c.tape k)) ∧
    PolyFn m T R n ds 1 (fun c : Coins q => row.2 c.alpha (c.tape k)) := by
  have ht : ∀ x y : CoinIx m T R n ds → ZMod q, (Coins.of (x + y)).tape k =
      fun i => (Coins.of x).tape k i + (Coins.of y).tape k i := by
    intro x y
    funext j
    simp only [Coins.of]
    split <;> simp
  constructor
  · refine of_add (f := fun x => row.2 (Coins.of x).s ((Coins.of x).tape k)) ?_
    intro x y
    rw [ht, ← hadd]; rfl
  · refine of_add (f := fun x => row.2 (Coins.of x).alpha ((Coins.of x).tape k)) ?_
    intro x y
    rw [ht, ← hadd]; rfl

end PolyFn

/-! ### The exponents of the schemes -/

theorem cpU_poly {rows : List (Row q)} {digs : List (List Bytes)}
    (hadd : ∀ row ∈ rows, ∀ s d (tape δ : Nat → ZMod q),
      row.2 (s + d) (fun i => tape i + δ i) = row.2 s tape + row.2 d δ)
    {u : Fn q} (h : CpU rows digs u) : PolyFn m T R n ds 2 u := by
  cases h with
  | zero => exact .const 0
  | one => exact .const 1
  | a => exact PolyFn.a.mono (by omega)
  | s => exact PolyFn.s.mono (by omega)
  | hash d => exact (PolyFn.hh d).mono (by omega)
  | c i row hi =>
    have h1 := (PolyFn.share (m := m) (T := T) (R := R) (n := n) (ds := ds) (hadd row (List.mem_of_getElem? hi)) 0).1.mul
      PolyFn.a
    have h2 := ((PolyFn.r (m := m) (T := T) (R := R) (n := n) (ds := ds) 0 i).mul (PolyFn.hh row.1)).smul (-1 : ZMod q)
    have := h1.add h2
    have e : (fun c : Coins q => row.2 c.s (c.tape 0) * c.a - c.r 0 i * c.h row.1) =
        ((fun c : Coins q => row.2 c.s (c.tape 0)) * fun c => c.a) +
          (-1 : ZMod q) • ((fun c : Coins q => c.r 0 i) * fun c => c.h row.1) := by
      funext c; simp [sub_eq_add_neg]
    rw [e]; exact this
  | kx k ds' d hk hd => exact (PolyFn.t k).mul (PolyFn.hh d)

theorem cpV_poly {rows : List (Row q)} {digs : List (List Bytes)} {v : Fn q} (h : CpV rows digs v) :
    PolyFn m T R n ds 2 v := by
  cases h with
  | zero => exact .const 0
  | one => exact .const 1
  | K k hk => exact (PolyFn.alpha.mono (by omega)).add ((PolyFn.t k).mul PolyFn.a)
  | L k hk => exact (PolyFn.t k).mono (by omega)
  | D i hi => exact (PolyFn.r 0 i).mono (by omega)

theorem kpU_poly {keys : List (List (Row q))} {digs : List Bytes}
    (hadd : ∀ rows ∈ keys, ∀ row ∈ rows, ∀ s d (tape δ : Nat → ZMod q),
      row.2 (s + d) (fun i => tape i + δ i) = row.2 s tape + row.2 d δ)
    {u : Fn q} (h : KpU keys digs u) : PolyFn m T R n ds 2 u := by
  cases h with
  | zero => exact .const 0
  | one => exact .const 1
  | hash d => exact (PolyFn.hh d).mono (by omega)
  | D k i rows row hk hi =>
    exact ((PolyFn.share (hadd rows (List.mem_of_getElem? hk) row (List.mem_of_getElem? hi)) k).2.mono (by omega)).add
      ((PolyFn.r k i).mul (PolyFn.hh row.1))
  | cx d hd => exact PolyFn.s.mul (PolyFn.hh d)

theorem kpV_poly {keys : List (List (Row q))} {v : Fn q} (h : KpV keys v) : PolyFn m T R n ds 1 v := by
  cases h with
  | zero => exact .const 0
  | one => exact .const 1
  | s => exact PolyFn.s
  | d k i => exact PolyFn.r k i

theorem expo_poly (A : Attack q) (x : Expo q) {d : Nat} (hd : 1 ≤ d)
    (hp : ∀ s l, PolyFn m T R n ds d (x.u s * x.v l)) (hw : ∀ l, x.w l = 0 ∨ x.w l = fun c => c.alpha) :
    PolyFn m T R n ds d (A.expo x) := by
  unfold Attack.expo
  refine PolyFn.add (PolyFn.sum _ ?_) (PolyFn.sum _ ?_)
  · intro f hf
    obtain ⟨t, -, rfl⟩ := List.mem_map.mp hf
    exact (hp _ _).smul _
  · intro f hf
    obtain ⟨t, -, rfl⟩ := List.mem_map.mp hf
    refine PolyFn.smul _ ?_
    rcases hw t.2 with h | h
    · rw [h]; exact .const 0
    · rw [h]; exact PolyFn.alpha.mono hd

/-- The exponents are polynomials of degree at most `d`. -/
structure Small (m T R n : Nat) (ds : Finset Bytes) (d : Nat) (x : Expo q) : Prop where
  u : ∀ s, PolyFn m T R n ds d (x.u s)
  v : ∀ l, PolyFn m T R n ds d (x.v l)
  pair : ∀ s l, PolyFn m T R n ds d (x.u s * x.v l)
  target : ∀ l, x.w l = 0 ∨ x.w l = fun c => c.alpha

/-- No attack computes a multiple of the secret for all random values. -/
def Hides (m T R n : Nat) (ds : Finset Bytes) (x : Expo q) : Prop :=
  ∀ (A : Attack q) (b : ZMod q), b ≠ 0 → ∃ y : CoinIx m T R n ds → ZMod q,
    (A.expo x + (-b) • fun c : Coins q => c.s * c.alpha) (Coins.of y) ≠ 0

/-! ### Counting zeros -/

/-- A polynomial in the coins that is not zero everywhere is zero for at most the fraction `d / q` of them. -/
theorem few_zeros {d : Nat} {f : Fn q} (hf : PolyFn m T R n ds d f)
    (hne : ∃ x : CoinIx m T R n ds → ZMod q, f (Coins.of x) ≠ 0) :
    Nat.card { x : CoinIx m T R n ds → ZMod q // f (Coins.of x) = 0 } * q ≤
      d * q ^ Fintype.card (CoinIx m T R n ds) := by
  obtain ⟨P, hP, he⟩ := hf
  obtain ⟨x0, hx0⟩ := hne
  set N := Fintype.card (CoinIx m T R n ds) with hN
  let ε : CoinIx m T R n ds ≃ Fin N := Fintype.equivFin _
  have hPne : P ≠ 0 := by
    rintro rfl
    exact hx0 (by rw [← he]; simp)
  set Q : MvPolynomial (Fin N) (ZMod q) := rename ε P with hQ
  have hQne : Q ≠ 0 := by
    intro h
    exact hPne (rename_injective ε ε.injective (by rw [← hQ, h]; simp))
  have hQd : Q.totalDegree ≤ d := (totalDegree_rename_le _ _).trans hP
  have hq0 : 0 < q := (Fact.out : q.Prime).pos
  have : NeZero q := ⟨hq0.ne'⟩
  have sz := schwartz_zippel_totalDegree hQne (Finset.univ : Finset (ZMod q))
  rw [Finset.card_univ, ZMod.card] at sz
  have hcard : Nat.card { x : CoinIx m T R n ds → ZMod q // f (Coins.of x) = 0 } =
      (Finset.filter (fun y : Fin N → ZMod q => eval y Q = 0) (Fintype.piFinset fun _ => Finset.univ)).card := by
    rw [Fintype.piFinset_univ]
    have e : { x : CoinIx m T R n ds → ZMod q // f (Coins.of x) = 0 } ≃
        { y : Fin N → ZMod q // eval y Q = 0 } := by
      refine Equiv.subtypeEquiv (Equiv.arrowCongr ε (Equiv.refl _)) ?_
      intro x
      rw [hQ, eval_rename, ← he]
      have : (Equiv.arrowCongr ε (Equiv.refl (ZMod q)) x) ∘ ε = x := by
        funext i; simp
      rw [this]
    rw [Nat.card_congr e, Nat.card_eq_fintype_card, Fintype.card_subtype]
  rw [hcard]
  have hqq : (0 : ℚ≥0) < (q : ℚ≥0) := by exact_mod_cast hq0
  rw [div_le_div_iff₀ (by positivity) hqq] at sz
  have h2 : ((Finset.filter (fun y : Fin N → ZMod q => eval y Q = 0) (Fintype.piFinset fun _ => Finset.univ)).card : ℚ≥0)
      * q ≤ d * q ^ N := sz.trans (by gcongr)
  exact_mod_cast h2

/-- Coins that are zero outside the named ones. -/
structure Within (m T R n : Nat) (ds : Finset Bytes) (c : Coins q) : Prop where
  tape : ∀ i j, ¬ (i < m ∧ j < T) → c.tape i j = 0
  r : ∀ i j, ¬ (i < m ∧ j < R) → c.r i j = 0
  t : ∀ i, ¬ i < n → c.t i = 0
  h : ∀ d, d ∉ ds → c.h d = 0

theorem Within.of {c : Coins q} (h : Within m T R n ds c) : ∃ x : CoinIx m T R n ds → ZMod q, Coins.of x = c := by
  refine ⟨fun i => match i with
    | .inl j => if j = 0 then c.alpha else if j = 1 then c.a else c.s
    | .inr (.inl (i, j)) => c.tape i j
    | .inr (.inr (.inl (i, j))) => c.r i j
    | .inr (.inr (.inr (.inl i))) => c.t i
    | .inr (.inr (.inr (.inr d))) => c.h d, ?_⟩
  obtain ⟨alpha, a, s, tape, r, t, hh⟩ := c
  obtain ⟨h1, h2, h3, h4⟩ := h
  simp only at h1 h2 h3 h4
  unfold Coins.of
  simp only [Coins.mk.injEq, if_true, Fin.isValue, one_ne_zero, if_false]
  refine ⟨trivial, trivial, ?_, ?_, ?_, ?_, ?_⟩
  · rw [if_neg (by decide), if_neg (by decide)]
  · funext i j; by_cases h : i < m ∧ j < T
    · simp [h]
    · simp [h, h1 i j h]
  · funext i j; by_cases h : i < m ∧ j < R
    · simp [h]
    · simp [h, h2 i j h]
  · funext i; by_cases h : i < n
    · simp [h]
    · simp [h, h3 i h]
  · funext d; by_cases h : d ∈ ds
    · simp [h]
    · simp [h, h4 d h]

end Abe.Scheme
