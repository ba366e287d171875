import Verif.Spec.Adaptive
import Verif.Proof.CollusionPoly
/-!
# Adaptive attackers

Runs of attackers follow one path for almost all random values, whether the challenge is the secret or random.
-/
set_option linter.unusedSimpArgs false
set_option linter.unusedSectionVars false
set_option autoImplicit false
namespace Abe.Scheme
variable {G1 G2 GT : Type} {q : Nat} [Fact q.Prime]
variable [AddCommGroup G1] [Module (ZMod q) G1] [AddCommGroup G2] [Module (ZMod q) G2] [AddCommGroup GT]
  [Module (ZMod q) GT]
variable {m T R n : Nat} {ds : Finset Bytes} {κ χ : Type}

/-- The part of the exponent that does not depend on the challenge. -/
def Query.expo (x : Expo q) : Query q → Fn q
  | .g1 l => (l.map fun t => t.1 • x.u t.2).sum
  | .g2 l => (l.map fun t => t.1 • x.v t.2).sum
  | .gt A _ => A.expo x

/-- The coefficient of the challenge. -/
def Query.coeff : Query q → ZMod q
  | .g1 _ => 0
  | .g2 _ => 0
  | .gt _ b => b

theorem Query.poly {d : Nat} (hd : 1 ≤ d) {x : Expo q} (h : Small m T R n ds d x) (Q : Query q) :
    PolyFn m T R n ds d (Q.expo x) := by
  cases Q with
  | g1 l =>
    refine PolyFn.sum _ ?_
    intro f hf
    obtain ⟨t, -, rfl⟩ := List.mem_map.mp hf
    exact (h.u _).smul _
  | g2 l =>
    refine PolyFn.sum _ ?_
    intro f hf
    obtain ⟨t, -, rfl⟩ := List.mem_map.mp hf
    exact (h.v _).smul _
  | gt A b => exact expo_poly A x hd h.pair h.target

/-- A question is answered by the exponents. -/
theorem Query.holds_iff {g : Game G1 G2 GT} (hb : Bilinear q g.env.e) (hE : g.env.e g.g1 g.g2 ≠ 0) {x : Expo q}
    {c : Coins q} {v : Views G1 G2 GT} (h : x.Of g c v) (k : ZMod q) (Q : Query q) :
    Q.holds g.env.e v (k • g.env.e g.g1 g.g2) ↔ Q.expo x c + Q.coeff * k = 0 := by
  have h1 : g.g1 ≠ 0 := by
    rintro h0
    apply hE
    have := hb.smul_left 0 g.g1 g.g2
    rw [zero_smul, zero_smul] at this
    rw [h0, this]
  have h2 : g.g2 ≠ 0 := by
    rintro h0
    apply hE
    have := hb.smul_right 0 g.g1 g.g2
    rw [zero_smul, zero_smul] at this
    rw [h0, this]
  cases Q with
  | g1 l =>
    have : (l.map fun t => t.1 • v.src t.2).sum = (Query.g1 l).expo x c • g.g1 := by
      simp only [Query.expo]
      induction l with
      | nil => simp
      | cons t l ih => simp only [List.map_cons, List.sum_cons, ih, h.1 t.2, Pi.add_apply, Pi.smul_apply, smul_eq_mul,
        add_smul, mul_smul]
    simp only [Query.holds, this, Query.coeff, zero_mul, add_zero, smul_eq_zero, h1, or_false]
  | g2 l =>
    have : (l.map fun t => t.1 • asG2 (v.at t.2)).sum = (Query.g2 l).expo x c • g.g2 := by
      simp only [Query.expo]
      induction l with
      | nil => simp
      | cons t l ih => simp only [List.map_cons, List.sum_cons, ih, h.2.1 t.2, Pi.add_apply, Pi.smul_apply, smul_eq_mul,
        add_smul, mul_smul]
    simp only [Query.holds, this, Query.coeff, zero_mul, add_zero, smul_eq_zero, h2, or_false]
  | gt A b =>
    have : A.run g.env.e v + b • k • g.env.e g.g1 g.g2 = (A.expo x c + b * k) • g.env.e g.g1 g.g2 := by
      rw [run_expo hb A h]; module
    simp only [Query.holds, this, Query.coeff, Query.expo, smul_eq_zero, hE, or_false]

/-- What is seen in a state of the game has small exponents, which hide the secret once there is a challenge. -/
structure Fits (g : Game G1 G2 GT) (m T R n : Nat) (ds : Finset Bytes) (d : Nat) (ch : Bool)
    (P : Coins q → Views G1 G2 GT → Prop) (x : Expo q) : Prop where
  seen : ∀ c, ∃ v, P c v
  expo : ∀ c v, P c v → x.Of g c v
  small : Small m T R n ds d x
  hides : ch = true → Hides m T R n ds x

section run
variable {g : Game G1 G2 GT} {Seen : Coins q → Option χ → List κ → Views G1 G2 GT → Prop} {d : Nat}
  {Fair : Option χ → List κ → Prop}

/-- Every attacker guesses exactly one bit. -/
theorem plays_unique (hb : Bilinear q g.env.e) (hE : g.env.e g.g1 g.g2 ≠ 0)
    (hfit : ∀ ch ks, Fair ch ks → ∃ x, Fits g m T R n ds d ch.isSome (fun c v => Seen c ch ks v) x)
    (c : Coins q) (k : ZMod q) (A : Adv q κ χ) : ∀ ch ks, Fair ch ks → A.Admissible Fair ch ks →
    ∃ b, ∀ b', Plays (Seen c) g.env.e (k • g.env.e g.g1 g.g2) ch ks A b' ↔ b' = b := by
  induction A with
  | guess b =>
    intro ch ks _ _
    refine ⟨b, fun b' => ⟨?_, ?_⟩⟩
    · intro h; cases h; rfl
    · rintro rfl; exact .guess _ _ _
  | key x next ih =>
    intro ch ks _ hA
    obtain ⟨b, hb'⟩ := ih ch _ hA.1 hA.2
    refine ⟨b, fun b' => ⟨?_, ?_⟩⟩
    · intro h; cases h with | key h => exact (hb' _).mp h
    · rintro rfl; exact .key ((hb' _).mpr rfl)
  | challenge y next ih =>
    intro ch ks _ hA
    obtain ⟨rfl, h1, h2⟩ := hA
    obtain ⟨b, hb'⟩ := ih _ _ h1 h2
    refine ⟨b, fun b' => ⟨?_, ?_⟩⟩
    · intro h; cases h with | challenge h => exact (hb' _).mp h
    · rintro rfl; exact .challenge ((hb' _).mpr rfl)
  | ask Q yes no ihy ihn =>
    intro ch ks hF hA
    obtain ⟨x, hx⟩ := hfit ch ks hF
    obtain ⟨v, hv⟩ := hx.seen c
    have hk : (if ch.isSome then k • g.env.e g.g1 g.g2 else 0) = (if ch.isSome then k else 0) • g.env.e g.g1 g.g2 := by
      split <;> simp
    have hh : ∀ v, Seen c ch ks v → (Q.holds g.env.e v (if ch.isSome then k • g.env.e g.g1 g.g2 else 0) ↔
        Q.expo x c + Q.coeff * (if ch.isSome then k else 0) = 0) := by
      intro v hv
      rw [hk]
      exact Query.holds_iff hb hE (hx.expo c v hv) _ Q
    obtain ⟨b1, h1⟩ := ihy ch ks hF hA.1
    obtain ⟨b2, h2⟩ := ihn ch ks hF hA.2
    by_cases hq : Q.expo x c + Q.coeff * (if ch.isSome then k else 0) = 0
    · refine ⟨b1, fun b' => ⟨?_, ?_⟩⟩
      · intro h
        cases h with
        | yes _ _ h => exact (h1 _).mp h
        | no hv' hn _ => exact absurd ((hh _ hv').mpr hq) hn
      · rintro rfl; exact .yes hv ((hh _ hv).mpr hq) ((h1 _).mpr rfl)
    · refine ⟨b2, fun b' => ⟨?_, ?_⟩⟩
      · intro h
        cases h with
        | no _ _ h => exact (h2 _).mp h
        | yes hv' hn _ => exact absurd ((hh _ hv').mp hn) hq
      · rintro rfl; exact .no hv (fun h => hq ((hh _ hv).mp h)) ((h2 _).mpr rfl)

/-- The random values and a random challenge. -/
abbrev Supply (q m T R n : Nat) (ds : Finset Bytes) : Type := (CoinIx m T R n ds → ZMod q) × ZMod q

/-- With these values the attacker guesses the same whether the challenge is the secret or random. -/
def Same (g : Game G1 G2 GT) (Seen : Coins q → Option χ → List κ → Views G1 G2 GT → Prop) (ch : Option χ) (ks : List κ)
    (A : Adv q κ χ) (z : Supply q m T R n ds) : Prop :=
  ∃ b, Plays (Seen (Coins.of z.1)) g.env.e (g.secret (Coins.of z.1)) ch ks A b ∧
    Plays (Seen (Coins.of z.1)) g.env.e (z.2 • g.env.e g.g1 g.g2) ch ks A b

theorem card_pair {P : (CoinIx m T R n ds → ZMod q) → Prop} :
    Nat.card { z : Supply q m T R n ds // P z.1 } = Nat.card { x : CoinIx m T R n ds → ZMod q // P x } * q := by
  have e : { z : Supply q m T R n ds // P z.1 } ≃ { x : CoinIx m T R n ds → ZMod q // P x } × ZMod q :=
    ⟨fun z => (⟨z.1.1, z.2⟩, z.1.2), fun z => ⟨(z.1.1, z.2), z.1.2⟩, fun _ => rfl, fun _ => rfl⟩
  rw [Nat.card_congr e, Nat.card_prod, Nat.card_zmod]

theorem card_random (f : Fn q) {b : ZMod q} (hb : b ≠ 0) :
    Nat.card { z : Supply q m T R n ds // f (Coins.of z.1) + b * z.2 = 0 } =
      q ^ Fintype.card (CoinIx m T R n ds) := by
  have e : { z : Supply q m T R n ds // f (Coins.of z.1) + b * z.2 = 0 } ≃ (CoinIx m T R n ds → ZMod q) :=
    ⟨fun z => z.1.1, fun x => ⟨(x, b⁻¹ * -(f (Coins.of x))), by
        simp only
        rw [mul_inv_cancel_left₀ hb]
        ring⟩, by
      rintro ⟨⟨x, k⟩, h⟩
      simp only [Subtype.mk.injEq, Prod.mk.injEq, true_and]
      simp only at h
      rw [← eq_neg_of_add_eq_zero_right h, inv_mul_cancel_left₀ hb], fun _ => rfl⟩
  rw [Nat.card_congr e, Nat.card_fun, Nat.card_zmod, Nat.card_eq_fintype_card]

theorem card_or {α : Type} [Finite α] (P Q S : α → Prop) (h : ∀ x, P x → Q x ∨ S x) :
    Nat.card { x // P x } ≤ Nat.card { x // Q x } + Nat.card { x // S x } := by
  have h1 : { x | P x } ⊆ { x | Q x } ∪ { x | S x } := h
  have h2 := Set.ncard_le_ncard h1 (Set.toFinite _)
  exact h2.trans (Set.ncard_union_le _ _)

/-- An attacker guesses the same in both worlds for all but a small part of the random values. -/
theorem few_differ (hb : Bilinear q g.env.e) (hE : g.env.e g.g1 g.g2 ≠ 0) (hd : 2 ≤ d)
    (hfit : ∀ ch ks, Fair ch ks → ∃ x, Fits g m T R n ds d ch.isSome (fun c v => Seen c ch ks v) x)
    (A : Adv q κ χ) : ∀ ch ks, Fair ch ks → A.Admissible Fair ch ks →
    Nat.card { z : Supply q m T R n ds // ¬ Same g Seen ch ks A z } * q ≤
      (d + 1) * A.questions * q ^ (Fintype.card (CoinIx m T R n ds) + 1) := by
  have hz : NeZero q := ⟨(Fact.out : q.Prime).pos.ne'⟩
  induction A with
  | guess b =>
    intro ch ks _ _
    have : Nat.card { z : Supply q m T R n ds // ¬ Same g Seen ch ks (.guess b : Adv q κ χ) z } = 0 := by
      have : IsEmpty { z : Supply q m T R n ds // ¬ Same g Seen ch ks (.guess b : Adv q κ χ) z } :=
        ⟨fun z => z.2 ⟨b, .guess _ _ _, .guess _ _ _⟩⟩
      exact Nat.card_of_isEmpty
    rw [this]; simp
  | key x next ih =>
    intro ch ks _ hA
    refine le_trans (Nat.mul_le_mul_right _ ?_) (ih ch _ hA.1 hA.2)
    refine Nat.card_le_card_of_injective (fun z => ⟨z.1, fun h => z.2 ?_⟩) (by
      intro y z h
      exact Subtype.ext (Subtype.mk.inj h))
    obtain ⟨b, h1, h2⟩ := h
    exact ⟨b, .key h1, .key h2⟩
  | challenge y next ih =>
    intro ch ks _ hA
    obtain ⟨rfl, h1, h2⟩ := hA
    refine le_trans (Nat.mul_le_mul_right _ ?_) (ih _ _ h1 h2)
    refine Nat.card_le_card_of_injective (fun z => ⟨z.1, fun h => z.2 ?_⟩) (by
      intro y z h
      exact Subtype.ext (Subtype.mk.inj h))
    obtain ⟨b, h1, h2⟩ := h
    exact ⟨b, .challenge h1, .challenge h2⟩
  | ask Q yes no ihy ihn =>
    intro ch ks hF hA
    obtain ⟨x, hx⟩ := hfit ch ks hF
    set N := Fintype.card (CoinIx m T R n ds) with hN
    -- the coefficient of the challenge, if there is one
    set b : ZMod q := if ch.isSome then Q.coeff else 0 with hbdef
    have hans : ∀ (c : Coins q) (k : ZMod q) v, Seen c ch ks v →
        (Q.holds g.env.e v (if ch.isSome then k • g.env.e g.g1 g.g2 else 0) ↔ Q.expo x c + b * k = 0) := by
      intro c k v hv
      have hk : (if ch.isSome then k • g.env.e g.g1 g.g2 else 0) = (if ch.isSome then k else 0) • g.env.e g.g1 g.g2 := by
        split <;> simp
      rw [hk, Query.holds_iff hb hE (hx.expo c v hv)]
      simp only [hbdef]
      split <;> simp
    have hsec : ∀ c : Coins q, g.secret c = (c.s * c.alpha) • g.env.e g.g1 g.g2 := fun c => by
      rw [Game.secret, smul_smul]
    have hpoly : PolyFn m T R n ds d (Q.expo x) := Q.poly (by omega) hx.small
    -- the answer that is right for almost all values
    have step : ∀ (B : Adv q κ χ), (Nat.card { z : Supply q m T R n ds // ¬ Same g Seen ch ks B z } * q ≤
          (d + 1) * B.questions * q ^ (N + 1)) → B.questions ≤ max yes.questions no.questions →
        (∀ bad : Supply q m T R n ds → Prop, (∀ z, ¬ bad z → Same g Seen ch ks B z → Same g Seen ch ks (.ask Q yes no) z) →
          Nat.card { z // bad z } * q ≤ (d + 1) * q ^ (N + 1) →
        Nat.card { z : Supply q m T R n ds // ¬ Same g Seen ch ks (.ask Q yes no) z } * q ≤
          (d + 1) * (Adv.ask Q yes no).questions * q ^ (N + 1)) := by
      intro B hB hBq bad hbad hcard
      have h1 := card_or (fun z : Supply q m T R n ds => ¬ Same g Seen ch ks (.ask Q yes no) z) bad
        (fun z => ¬ Same g Seen ch ks B z) (by
          intro z hz
          by_contra hcon
          simp only [not_or, not_not] at hcon
          exact hz (hbad z hcon.1 hcon.2))
      calc _ ≤ (Nat.card { z // bad z } + Nat.card { z : Supply q m T R n ds // ¬ Same g Seen ch ks B z }) * q :=
            Nat.mul_le_mul_right _ h1
        _ = Nat.card { z // bad z } * q + Nat.card { z : Supply q m T R n ds // ¬ Same g Seen ch ks B z } * q := by ring
        _ ≤ (d + 1) * q ^ (N + 1) + (d + 1) * B.questions * q ^ (N + 1) := Nat.add_le_add hcard hB
        _ = (d + 1) * (B.questions + 1) * q ^ (N + 1) := by ring
        _ ≤ _ := by
          refine Nat.mul_le_mul_right _ (Nat.mul_le_mul_left _ ?_)
          simp only [Adv.questions]
          omega
    -- lifting a common answer
    have lift : ∀ (z : Supply q m T R n ds) (B : Adv q κ χ),
        ((B = yes ∧ Q.expo x (Coins.of z.1) + b * ((Coins.of z.1).s * (Coins.of z.1).alpha) = 0 ∧
            Q.expo x (Coins.of z.1) + b * z.2 = 0) ∨
          (B = no ∧ Q.expo x (Coins.of z.1) + b * ((Coins.of z.1).s * (Coins.of z.1).alpha) ≠ 0 ∧
            Q.expo x (Coins.of z.1) + b * z.2 ≠ 0)) →
        Same g Seen ch ks B z → Same g Seen ch ks (.ask Q yes no) z := by
      rintro z B hcase ⟨bit, p1, p2⟩
      obtain ⟨v, hv⟩ := hx.seen (Coins.of z.1)
      refine ⟨bit, ?_, ?_⟩
      · rw [hsec] at p1 ⊢
        rcases hcase with ⟨rfl, h1, h2⟩ | ⟨rfl, h1, h2⟩
        · exact .yes hv ((hans _ _ v hv).mpr h1) p1
        · exact .no hv (fun h => h1 ((hans _ _ v hv).mp h)) p1
      · rcases hcase with ⟨rfl, h1, h2⟩ | ⟨rfl, h1, h2⟩
        · exact .yes hv ((hans _ _ v hv).mpr h2) p2
        · exact .no hv (fun h => h2 ((hans _ _ v hv).mp h)) p2
    by_cases hb0 : b = 0
    · by_cases hall : ∀ y : CoinIx m T R n ds → ZMod q, Q.expo x (Coins.of y) = 0
      · refine step yes (ihy ch ks hF hA.1) (le_max_left _ _) (fun _ => False) ?_ (by simp)
        intro z _
        exact lift z yes (.inl ⟨rfl, by simp [hb0, hall], by simp [hb0, hall]⟩)
      · simp only [not_forall] at hall
        refine step no (ihn ch ks hF hA.2) (le_max_right _ _) (fun z => Q.expo x (Coins.of z.1) = 0) ?_ ?_
        · intro z hz
          exact lift z no (.inr ⟨rfl, by simpa [hb0] using hz, by simpa [hb0] using hz⟩)
        · rw [card_pair (P := fun y => Q.expo x (Coins.of y) = 0)]
          have := few_zeros hpoly hall
          calc _ ≤ (d * q ^ N) * q := Nat.mul_le_mul_right _ this
            _ = d * q ^ (N + 1) := by ring
            _ ≤ _ := Nat.mul_le_mul_right _ (by omega)
    · have hch : ch.isSome = true := by
        by_contra h
        exact hb0 (by simp [hbdef, h])
      have hbQ : b = Q.coeff := by simp [hbdef, hch]
      obtain ⟨A, hQ⟩ : ∃ A : Attack q, Q = .gt A b := by
        cases Q with
        | g1 l => exact absurd hbQ hb0
        | g2 l => exact absurd hbQ hb0
        | gt A b' => exact ⟨A, by rw [hbQ]; rfl⟩
      have hexp : Q.expo x = A.expo x := by rw [hQ]; rfl
      refine step no (ihn ch ks hF hA.2) (le_max_right _ _)
        (fun z => (Q.expo x + b • fun c : Coins q => c.s * c.alpha) (Coins.of z.1) = 0 ∨
          Q.expo x (Coins.of z.1) + b * z.2 = 0) ?_ ?_
      · intro z hz
        simp only [not_or] at hz
        exact lift z no (.inr ⟨rfl, hz.1, hz.2⟩)
      · have h1 : PolyFn m T R n ds d (Q.expo x + b • fun c : Coins q => c.s * c.alpha) :=
          hpoly.add (((PolyFn.s.mul PolyFn.alpha).smul _).mono (by omega))
        have h2 : ∃ y : CoinIx m T R n ds → ZMod q,
            (Q.expo x + b • fun c : Coins q => c.s * c.alpha) (Coins.of y) ≠ 0 := by
          have := hx.hides hch A (-b) (by simpa using hb0)
          rw [hexp]
          simpa only [neg_neg] using this
        have h3 := few_zeros h1 h2
        have h4 := card_random (m := m) (T := T) (R := R) (n := n) (ds := ds) (Q.expo x) hb0
        have h5 := card_or (fun z : Supply q m T R n ds =>
          (Q.expo x + b • fun c : Coins q => c.s * c.alpha) (Coins.of z.1) = 0 ∨ Q.expo x (Coins.of z.1) + b * z.2 = 0)
          _ _ (fun _ h => h)
        rw [h4, card_pair (P := fun y => (Q.expo x + b • fun c : Coins q => c.s * c.alpha) (Coins.of y) = 0)] at h5
        calc _ ≤ _ := Nat.mul_le_mul_right _ h5
          _ = (Nat.card { y : CoinIx m T R n ds → ZMod q //
              (Q.expo x + b • fun c : Coins q => c.s * c.alpha) (Coins.of y) = 0 } * q) * q + q ^ (N + 1) := by ring
          _ ≤ (d * q ^ N) * q + q ^ (N + 1) := Nat.add_le_add_right (Nat.mul_le_mul_right _ h3) _
          _ = _ := by ring

end run
end Abe.Scheme
