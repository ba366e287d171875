import Verif.Proof.Adaptive
import Verif.Props.Collusion
/-!
# Session keys look random to adaptive attackers (C115)

The attackers are those of Verif/Spec/Adaptive.lean; everything they see is computed by the model of the code.
-/
set_option linter.unusedSimpArgs false
set_option linter.unusedSectionVars false
set_option autoImplicit false
namespace Abe.Scheme
variable {G1 G2 GT : Type} {q : Nat} [Fact q.Prime]
variable [AddCommGroup G1] [Module (ZMod q) G1] [AddCommGroup G2] [Module (ZMod q) G2] [AddCommGroup GT]
  [Module (ZMod q) GT]
variable {m T R n : Nat} {ds : Finset Bytes}

/-! ### Before the challenge -/

/-- The exponents without those of a ciphertext. -/
def Expo.noCt (x : Expo q) : Expo q where
  u s := match s with
    | .comp (.ct _) => 0
    | s => x.u s
  v l := match l with
    | .ct _ => 0
    | l => x.v l
  w l := match l with
    | .ct _ => 0
    | l => x.w l

theorem Expo.noCt_of {x : Expo q} {g : Game G1 G2 GT} {c : Coins q} {v : Views G1 G2 GT} (h : x.Of g c v) :
    x.noCt.Of g c { v with ct := [] } := by
  obtain ⟨h1, h2, h3⟩ := h
  refine ⟨?_, ?_, ?_⟩
  · rintro (l | nm)
    · cases l with
      | ct nm => simp [Expo.noCt, Views.src, Views.at, SMap.find, asG1]
      | mpk nm => exact h1 (.comp (.mpk nm))
      | key i nm => exact h1 (.comp (.key i nm))
    · exact h1 (.hash nm)
  · rintro (nm | nm | ⟨i, nm⟩)
    · exact h2 (.mpk nm)
    · simp [Expo.noCt, Views.at, SMap.find, asG2]
    · exact h2 (.key i nm)
  · rintro (nm | nm | ⟨i, nm⟩)
    · exact h3 (.mpk nm)
    · simp [Expo.noCt, Views.at, SMap.find, asGT]
    · exact h3 (.key i nm)

theorem Small.noCt {d : Nat} {x : Expo q} (h : Small m T R n ds d x) : Small m T R n ds d x.noCt := by
  have hu : ∀ s, x.noCt.u s = 0 ∨ x.noCt.u s = x.u s := by
    rintro ((nm | nm | ⟨i, nm⟩) | nm)
    · exact .inr rfl
    · exact .inl rfl
    · exact .inr rfl
    · exact .inr rfl
  have hv : ∀ l, x.noCt.v l = 0 ∨ x.noCt.v l = x.v l := by
    rintro (nm | nm | ⟨i, nm⟩)
    · exact .inr rfl
    · exact .inl rfl
    · exact .inr rfl
  refine ⟨?_, ?_, ?_, ?_⟩
  · intro s
    rcases hu s with e | e
    · rw [e]; exact .const 0
    · rw [e]; exact h.u s
  · intro l
    rcases hv l with e | e
    · rw [e]; exact .const 0
    · rw [e]; exact h.v l
  · intro s l
    rcases hu s with e | e
    · rw [e, zero_mul]; exact .const 0
    · rcases hv l with e' | e'
      · rw [e', mul_zero]; exact .const 0
      · rw [e, e']; exact h.pair s l
  · rintro (nm | nm | ⟨i, nm⟩)
    · exact h.target (.mpk nm)
    · exact .inl rfl
    · exact h.target (.key i nm)

theorem cpSeen_none (g : Game G1 G2 GT) (hready : g.ctx.ready = true) (als : List AttrList) (c : Coins q) :
    ∀ v, CpSeen g c none als v ↔ v = { (cpViewFn g [] [] als).eval g c with ct := [] } := by
  obtain ⟨P, M, hPM, f1, f2, f3, f4, f5, f6, f7⟩ := cpParams_ok (g.envOf c) (g.params c)
  have hP : P = evalC (cpMpkFn g) c := by
    have h : cpParams (g.envOf c) (g.params c) = .ok (_, _) := rfl
    rw [h] at hPM
    simp only [Res.ok.injEq, Prod.mk.injEq] at hPM
    rw [← hPM.1]
    rfl
  have hkey : ∀ (mpk msk : Key G1 G2 GT), mpk.comps = P → msk.comps = M → ∀ (al : AttrList) (i : Nat),
      cpKeyBody (g.envOf c) g.ctx mpk msk al (c.t i) = .ok (evalC (cpKeyFn g al i) c) := by
    intro mpk msk h1 h2 al i
    subst h1; subst h2
    have e : cpKeyBody (g.envOf c) g.ctx mpk msk al (c.t i) = .ok (cpDk (g.envOf c) (g.params c) al (c.t i)) := by
      simp only [cpKeyBody, getBytes_of f5, getZP_of f6, getG2_of f2, getG2_of f7, usePairing_ok hready, Res.ok_bind,
        deref_some, setComponent_attrs, setComponent_g2, cpKeyLoop_eq, ZMod.natCast_zmod_val, cpDk]
    rw [e]
    unfold cpDk cpKeyFn
    rw [← addRows_evalC, List.map_map]
    rfl
  intro v
  constructor
  · rintro ⟨mpk, msk, h1, h2, h3, h4, h6, h8⟩
    rw [hPM] at h1
    simp only [Res.ok.injEq, Prod.mk.injEq] at h1
    obtain ⟨vm, vc, vk, vh⟩ := v
    simp only at h2 h3 h4 h6 h8
    have ek : vk = ((cpViewFn g [] [] als).eval g c).keys := by
      funext i
      show vk i = evalC ((cpViewFn g [] [] als).keys i) c
      cases hi : als[i]? with
      | none =>
        simp only [cpViewFn, hi]
        exact h4 i (by simpa using hi)
      | some al =>
        simp only [cpViewFn, hi]
        have := h3 i al hi
        rw [hkey mpk msk h1.1.symm h1.2.symm] at this
        simpa using this.symm
    rw [ek, h2, h6, h8, ← h1.1, hP]
    rfl
  · rintro rfl
    refine ⟨newKey 0 g.mpkID g.uid P, newKey 0 g.mskID g.uid M, hPM, hP.symm, ?_, ?_, rfl, rfl⟩
    · intro i al hi
      rw [hkey _ _ rfl rfl]
      show _ = Res.ok (evalC ((cpViewFn g [] [] als).keys i) c)
      simp only [cpViewFn, hi]
    · intro i hi
      show evalC ((cpViewFn g [] [] als).keys i) c = []
      have : als[i]? = none := by simpa using hi
      simp only [cpViewFn, this]
      rfl

theorem kpKeyLoop_comps {env : Env G1 G2 GT} {mpk mpk' : Key G1 G2 GT} (h : mpk.comps = mpk'.comps) (k : Option Bytes)
    (r : Nat → ZMod q) : ∀ (rows : List (Bytes × (Bytes × ZMod q))) (i : Nat) (d : Container G1 G2 GT),
    kpKeyLoop env mpk k r i rows d = kpKeyLoop env mpk' k r i rows d
  | [], _, _ => rfl
  | row :: rows, i, d => by
    simp only [kpKeyLoop, h]
    have := kpKeyLoop_comps (env := env) h k r rows
    simp only [this]

theorem kpKeyBody_comps {env : Env G1 G2 GT} {c : Ctx G1 G2 GT} {mpk mpk' msk msk' : Key G1 G2 GT}
    (h : mpk.comps = mpk'.comps) (h' : msk.comps = msk'.comps) (p : Policy) (tape r : Nat → ZMod q) :
    kpKeyBody env c mpk msk p tape r = kpKeyBody env c mpk' msk' p tape r := by
  simp only [kpKeyBody, h, h', kpKeyLoop_comps h]

/-- No attributes. -/
def noAttrs : AttrList := {}

theorem kpSeen_none (g : Game G1 G2 GT) (hnd : g.env.ndebug = false) (hready : g.ctx.ready = true)
    (ps : List Policy) (ks : List (Bytes × SMap (Bytes × ShareFn (ZMod q)))) (hlen : ps.length = ks.length)
    (hks : ∀ (i : Nat) p k, ps[i]? = some p → ks[i]? = some k → ∃ t, RowsOf p k t) (c : Coins q) :
    ∀ v, KpSeen g c none ps v ↔ v = { (kpViewFn g noAttrs ks).eval g c with ct := [] } := by
  have hfull := kpGame_view g hnd hready noAttrs ps ks hlen hks c
  obtain ⟨mpk0, msk0, key0, ct0, h1, h2, h3, h4, h5, h6, h7, h8⟩ := (hfull _).mpr rfl
  intro v
  constructor
  · rintro ⟨mpk, msk, g1, g2, g3, g4, g6, g8⟩
    rw [h1] at g1
    simp only [Res.ok.injEq, Prod.mk.injEq] at g1
    obtain ⟨vm, vc, vk, vh⟩ := v
    simp only at g2 g3 g4 g6 g8
    have ek : vk = ((kpViewFn g noAttrs ks).eval g c).keys := by
      funext i
      by_cases hi : i < ps.length
      · have a1 := g3 i ps[i] (by simp [hi])
        have a2 := h3 i ps[i] (by simp [hi])
        rw [kpKeyBody_comps g1.1 g1.2] at a2
        rw [a1] at a2
        simpa using a2
      · rw [g4 i (by omega), h4 i (by omega)]
    rw [ek, g2, g6, g8, ← g1.1, ← h2, ← h8]
  · rintro rfl
    exact ⟨mpk0, msk0, h1, h2, h3, h4, rfl, h8⟩

/-! ### The exponents in every state -/

theorem cp_fits (g : Game G1 G2 GT) (hnd : g.env.ndebug = false) (hready : g.ctx.ready = true) (h2 : 2 < q) (hm : 1 ≤ m)
    (ch : Option Policy) (als : List AttrList) (hF : CpFair g q T R n ds ch als) :
    ∃ x, Fits g m T R n ds 4 ch.isSome (fun c v => CpSeen (q := q) g c ch als v) x := by
  cases ch with
  | some p =>
    obtain ⟨hn, hp⟩ := hF
    obtain ⟨⟨s, hs⟩, hsize, hcov, hclash, hunsat⟩ := hp p rfl
    obtain ⟨h1, x, h3, h4, h5⟩ := cp_expo (m := m) g hnd hready s p hs hsize h2 als hunsat hclash hm hn hcov
    exact ⟨x, h1, h3, h4, fun _ => h5⟩
  | none =>
    obtain ⟨x, hx, hU, hV, hW⟩ := cpView_expo (q := q) g [] [] als
    have hadd : ∀ row ∈ digestRows (q := q) g [], ∀ s d (tape δ : Nat → ZMod q),
        row.2 (s + d) (fun i => tape i + δ i) = row.2 s tape + row.2 d δ := by
      intro row hr
      simp [digestRows] at hr
    have hs : Small m T R n ds 4 x := ⟨fun s => (cpU_poly hadd (hU s)).mono (by omega),
      fun l => (cpV_poly (hV l)).mono (by omega), fun s l => (cpU_poly hadd (hU s)).mul (cpV_poly (hV l)), hW⟩
    refine ⟨x.noCt, fun c => ⟨_, (cpSeen_none g hready als c _).mpr rfl⟩, ?_, hs.noCt, by simp⟩
    intro c v hv
    rw [(cpSeen_none g hready als c v).mp hv]
    exact Expo.noCt_of (hx c)

theorem kp_fits (g : Game G1 G2 GT) (hnd : g.env.ndebug = false) (hready : g.ctx.ready = true)
    (ch : Option AttrList) (ps : List Policy) (hF : KpFair g q m T R ds ch ps) :
    ∃ x, Fits g m T R n ds 3 ch.isSome (fun c v => KpSeen (q := q) g c ch ps v) x := by
  obtain ⟨hm, hp, hch⟩ := hF
  cases ch with
  | some al =>
    obtain ⟨hclash, hunsat⟩ := hch al rfl
    obtain ⟨h1, x, h3, h4, h5⟩ := kp_expo (m := m) (n := n) g hnd hready al ps (fun p h => (hp p h).1)
      (fun p h => (hp p h).2.1) hunsat hclash hm fun p h => (hp p h).2.2
    exact ⟨x, h1, h3, h4, fun _ => h5⟩
  | none =>
    have hshape : ∀ p ∈ ps, ∃ t, p.root = some t ∧ PosGates t ∧ ∀ l ∈ leaves t, l.idx.isSome := by
      intro p hpm
      obtain ⟨s, hs⟩ := (hp p hpm).1
      obtain ⟨-, t, hroot, hao, -, -, hidx⟩ := accepted_shape hs
      exact ⟨t, hroot, hao.pos, hidx⟩
    have hview := fun c : Coins q => kpSeen_none g hnd hready ps (ps.map fun p => (p.compact, rowsOf p)) (by simp) (by
      intro i p k h1 h2
      obtain ⟨t, hroot, hpos, hidx⟩ := hshape p (List.mem_of_getElem? h1)
      simp only [List.getElem?_map, h1, Option.map_some, Option.some.injEq] at h2
      subst h2
      exact ⟨t, rfl, hroot, hpos, hidx, rowsOf_eq hroot⟩) c
    obtain ⟨x, hx, hU, hV, hW⟩ := kpView_expo (q := q) g noAttrs (ps.map fun p => (p.compact, rowsOf p))
    have hadd : ∀ rows ∈ (ps.map fun p => (p.compact, rowsOf (q := q) p)).map fun k => digestRows g k.2, ∀ row ∈ rows,
        ∀ s d (tape δ : Nat → ZMod q), row.2 (s + d) (fun i => tape i + δ i) = row.2 s tape + row.2 d δ := by
      intro rows hrs row hr
      simp only [List.map_map, List.mem_map, Function.comp] at hrs
      obtain ⟨p, hpm, rfl⟩ := hrs
      obtain ⟨t, hroot, -⟩ := hshape p hpm
      rw [rowsOf_eq hroot] at hr
      obtain ⟨y, hy, rfl⟩ := List.mem_map.mp hr
      exact add_rows p t y hy
    have hs : Small m T R n ds 3 x := ⟨fun s => (kpU_poly hadd (hU s)).mono (by omega),
      fun l => (kpV_poly (hV l)).mono (by omega), fun s l => (kpU_poly hadd (hU s)).mul (kpV_poly (hV l)), hW⟩
    refine ⟨x.noCt, fun c => ⟨_, (hview c _).mpr rfl⟩, ?_, hs.noCt, by simp⟩
    intro c v hv
    rw [(hview c v).mp hv]
    exact Expo.noCt_of (hx c)

/-! ### Counting guesses -/

/-- If two experiments have the same outcome for all but a few values, they are won equally often but for those. -/
theorem advantage_le {α : Type} [Finite α] (P Q D : α → Prop) (h : ∀ x, ¬ D x → (P x ↔ Q x)) :
    |(Nat.card { x // P x } : ℤ) - Nat.card { x // Q x }| ≤ Nat.card { x // D x } := by
  have h1 := card_or P Q D (by
    intro x hx
    by_cases hd : D x
    · exact .inr hd
    · exact .inl ((h x hd).mp hx))
  have h2 := card_or Q P D (by
    intro x hx
    by_cases hd : D x
    · exact .inr hd
    · exact .inl ((h x hd).mpr hx))
  rw [abs_le]
  constructor <;> omega

section
variable {κ χ : Type} {g : Game G1 G2 GT} {Seen : Coins q → Option χ → List κ → Views G1 G2 GT → Prop} {d : Nat}
  {Fair : Option χ → List κ → Prop}

theorem advantage_bound (hb : Bilinear q g.env.e) (hE : g.env.e g.g1 g.g2 ≠ 0) (hd : 2 ≤ d)
    (hfit : ∀ ch ks, Fair ch ks → ∃ x, Fits g m T R n ds d ch.isSome (fun c v => Seen c ch ks v) x)
    (h0 : Fair none []) (A : Adv q κ χ) (hA : A.Admissible Fair none []) :
    |(Nat.card { z : Supply q m T R n ds //
        Plays (Seen (Coins.of z.1)) g.env.e (g.secret (Coins.of z.1)) none [] A true } : ℤ) -
      Nat.card { z : Supply q m T R n ds //
        Plays (Seen (Coins.of z.1)) g.env.e (z.2 • g.env.e g.g1 g.g2) none [] A true }| * q ≤
      (d + 1) * A.questions * q ^ (Fintype.card (CoinIx m T R n ds) + 1) := by
  have hz : NeZero q := ⟨(Fact.out : q.Prime).pos.ne'⟩
  have h1 := few_differ (m := m) (T := T) (R := R) (n := n) (ds := ds) hb hE hd hfit A none [] h0 hA
  have h2 := advantage_le
    (fun z : Supply q m T R n ds => Plays (Seen (Coins.of z.1)) g.env.e (g.secret (Coins.of z.1)) none [] A true)
    (fun z => Plays (Seen (Coins.of z.1)) g.env.e (z.2 • g.env.e g.g1 g.g2) none [] A true)
    (fun z => ¬ Same g Seen none [] A z) (by
      intro z hz
      simp only [not_not] at hz
      obtain ⟨b, p1, p2⟩ := hz
      have hs : g.secret (Coins.of z.1) = ((Coins.of z.1).s * (Coins.of z.1).alpha) • g.env.e g.g1 g.g2 := by
        rw [Game.secret, smul_smul]
      obtain ⟨b1, u1⟩ := plays_unique hb hE hfit (Coins.of z.1) ((Coins.of z.1).s * (Coins.of z.1).alpha) A none [] h0 hA
      obtain ⟨b2, u2⟩ := plays_unique hb hE hfit (Coins.of z.1) z.2 A none [] h0 hA
      rw [hs] at p1 ⊢
      rw [u1] at p1 ⊢
      rw [u2] at p2 ⊢
      rw [← p1, ← p2])
  have h3 : ((Nat.card { z : Supply q m T R n ds // ¬ Same g Seen none [] A z } : ℤ)) * q ≤
      (d + 1) * A.questions * q ^ (Fintype.card (CoinIx m T R n ds) + 1) := by exact_mod_cast h1
  exact (mul_le_mul_of_nonneg_right h2 (by positivity)).trans h3

end

/-! ## C115 -/

/-- Ciphertext-policy, adaptive security in the generic group model: an attacker who asks, in any order and depending
on all answers so far, for keys and for a ciphertext whose policy none of the keys satisfies, and tests linear relations between
everything it sees and the challenge, always guesses exactly one bit; and its guesses when the challenge is the element
the session key is derived from and when it is a random element differ for at most the fraction `5 n / q` of the random
values, where `n` is the number of tests. -/
theorem C115_cp_indistinguishable (g : Game G1 G2 GT) (hb : Bilinear q g.env.e) (hE : g.env.e g.g1 g.g2 ≠ 0)
    (hnd : g.env.ndebug = false) (hready : g.ctx.ready = true) (h2 : 2 < q) (hm : 1 ≤ m)
    (A : Adv q AttrList Policy) (hA : A.Admissible (CpFair g q T R n ds) none []) :
    (∀ (c : Coins q) (k : ZMod q), ∃! b, Plays (CpSeen g c) g.env.e (k • g.env.e g.g1 g.g2) none [] A b) ∧
    Nat.card { z : (CoinIx m T R n ds → ZMod q) × ZMod q // ¬ ∃ b,
        Plays (CpSeen g (Coins.of z.1)) g.env.e (g.secret (Coins.of z.1)) none [] A b ∧
        Plays (CpSeen g (Coins.of z.1)) g.env.e (z.2 • g.env.e g.g1 g.g2) none [] A b } * q ≤
      5 * A.questions * q ^ (Fintype.card (CoinIx m T R n ds) + 1) ∧
    |(Nat.card { z : (CoinIx m T R n ds → ZMod q) × ZMod q //
        Plays (CpSeen g (Coins.of z.1)) g.env.e (g.secret (Coins.of z.1)) none [] A true } : ℤ) -
      Nat.card { z : (CoinIx m T R n ds → ZMod q) × ZMod q //
        Plays (CpSeen g (Coins.of z.1)) g.env.e (z.2 • g.env.e g.g1 g.g2) none [] A true }| * q ≤
      5 * A.questions * q ^ (Fintype.card (CoinIx m T R n ds) + 1) := by
  have hfit := cp_fits (q := q) (m := m) (T := T) (R := R) (n := n) (ds := ds) g hnd hready h2 hm
  have h0 : CpFair g q T R n ds none [] := ⟨by simp, by simp⟩
  refine ⟨?_, few_differ hb hE (by omega) hfit A none [] h0 hA, ?_⟩
  · intro c k
    obtain ⟨b, hb'⟩ := plays_unique hb hE hfit c k A none [] h0 hA
    exact ⟨b, (hb' b).mpr rfl, fun b' h => (hb' b').mp h⟩
  · have := advantage_bound (m := m) (T := T) (R := R) (n := n) (ds := ds) hb hE (by omega) hfit h0 A hA
    exact_mod_cast this

/-- Key-policy, adaptive security in the generic group model: the same for keys for policies, none of which is
satisfied by the attributes of the ciphertext, with `4 n / q`. -/
theorem C115_kp_indistinguishable (g : Game G1 G2 GT) (hb : Bilinear q g.env.e) (hE : g.env.e g.g1 g.g2 ≠ 0)
    (hnd : g.env.ndebug = false) (hready : g.ctx.ready = true)
    (A : Adv q Policy AttrList) (hA : A.Admissible (KpFair g q m T R ds) none []) :
    (∀ (c : Coins q) (k : ZMod q), ∃! b, Plays (KpSeen g c) g.env.e (k • g.env.e g.g1 g.g2) none [] A b) ∧
    Nat.card { z : (CoinIx m T R n ds → ZMod q) × ZMod q // ¬ ∃ b,
        Plays (KpSeen g (Coins.of z.1)) g.env.e (g.secret (Coins.of z.1)) none [] A b ∧
        Plays (KpSeen g (Coins.of z.1)) g.env.e (z.2 • g.env.e g.g1 g.g2) none [] A b } * q ≤
      4 * A.questions * q ^ (Fintype.card (CoinIx m T R n ds) + 1) ∧
    |(Nat.card { z : (CoinIx m T R n ds → ZMod q) × ZMod q //
        Plays (KpSeen g (Coins.of z.1)) g.env.e (g.secret (Coins.of z.1)) none [] A true } : ℤ) -
      Nat.card { z : (CoinIx m T R n ds → ZMod q) × ZMod q //
        Plays (KpSeen g (Coins.of z.1)) g.env.e (z.2 • g.env.e g.g1 g.g2) none [] A true }| * q ≤
      4 * A.questions * q ^ (Fintype.card (CoinIx m T R n ds) + 1) := by
  have hfit := kp_fits (q := q) (m := m) (T := T) (R := R) (n := n) (ds := ds) g hnd hready
  have h0 : KpFair g q m T R ds none [] := ⟨by simp, by simp, by simp⟩
  refine ⟨?_, few_differ hb hE (by omega) hfit A none [] h0 hA, ?_⟩
  · intro c k
    obtain ⟨b, hb'⟩ := plays_unique hb hE hfit c k A none [] h0 hA
    exact ⟨b, (hb' b).mpr rfl, fun b' h => (hb' b').mp h⟩
  · have := advantage_bound (m := m) (T := T) (R := R) (n := n) (ds := ds) hb hE (by omega) hfit h0 A hA
    exact_mod_cast this

/-- The bound of `C115_cp_indistinguishable` needs its hypothesis: with one key that satisfies the policy one test tells
the secret from a random element, for all but the fraction `1 / q` of the random values. -/
theorem C115_cp_authorised (g : Game G1 G2 GT) (hb : Bilinear q g.env.e) (hE : g.env.e g.g1 g.g2 ≠ 0)
    (hnd : g.env.ndebug = false) (hready : g.ctx.ready = true) (s : Bytes) (p : Policy)
    (hp : createPolicyTree g.env.mktime s = .ok (some p)) (al : AttrList) (hsat : Satisfies al.attrs p)
    (hrows : (rowLabels g.env.md p).Nodup) (hattrs : NoClash g.env.md al.attrs) :
    ∃ A : Adv q AttrList Policy, A.questions = 1 ∧
      (∀ c : Coins q, Plays (CpSeen g c) g.env.e (g.secret c) none [] A true) ∧
      Nat.card { z : (CoinIx m T R n ds → ZMod q) × ZMod q //
        Plays (CpSeen g (Coins.of z.1)) g.env.e (z.2 • g.env.e g.g1 g.g2) none [] A true } =
      q ^ Fintype.card (CoinIx m T R n ds) := by
  obtain ⟨B, hB⟩ := C113_cp_authorised (q := q) g hb hnd hready s p hp [al] 0 al rfl hsat hrows hattrs
  obtain ⟨hcomp, t, hroot, hao, hbin, hfr, hidx⟩ := accepted_shape hp
  have hview := fun c : Coins q => cpGame_view g hnd hready s p t hcomp hroot hao.pos hidx [al] c
  have hh : ∀ (c : Coins q) (k : ZMod q) v, CpGame g p [al] c v →
      ((Query.gt B (-1)).holds g.env.e v (k • g.env.e g.g1 g.g2) ↔ -(c.s * c.alpha) + 1 * k = 0) := by
    intro c k v hv
    have : B.run g.env.e v + (-1 : ZMod q) • k • g.env.e g.g1 g.g2 = (-(-(c.s * c.alpha) + 1 * k)) • g.env.e g.g1 g.g2 := by
      rw [hB c v hv, Game.secret]; module
    simp only [Query.holds, this, smul_eq_zero, hE, or_false, neg_eq_zero]
  refine ⟨.key al (.challenge p (.ask (.gt B (-1)) (.guess true) (.guess false))), rfl, ?_, ?_⟩
  · intro c
    refine .key (.challenge (.yes (v := _) ((hview c _).mpr rfl) ?_ (.guess _ _ _)))
    have : g.secret c = (c.s * c.alpha) • g.env.e g.g1 g.g2 := by rw [Game.secret, smul_smul]
    simp only [Option.isSome_some, if_true, this]
    rw [hh c _ _ ((hview c _).mpr rfl)]
    ring
  · rw [← card_random (m := m) (T := T) (R := R) (n := n) (ds := ds) (fun c : Coins q => -(c.s * c.alpha)) (b := 1)
      one_ne_zero]
    refine Nat.card_congr (Equiv.subtypeEquivRight ?_)
    intro z
    constructor
    · intro h
      cases h with
      | key h =>
        cases h with
        | challenge h =>
          cases h with
          | yes hv hq _ =>
            simp only [Option.isSome_some, if_true] at hq
            exact (hh _ _ _ hv).mp hq
          | no _ _ h => cases h
    · intro h
      refine .key (.challenge (.yes (v := _) ((hview _ _).mpr rfl) ?_ (.guess _ _ _)))
      simp only [Option.isSome_some, if_true]
      exact (hh _ _ _ ((hview _ _).mpr rfl)).mpr h

/-- The bound of `C115_kp_indistinguishable` needs its hypothesis. -/
theorem C115_kp_authorised (g : Game G1 G2 GT) (hb : Bilinear q g.env.e) (hE : g.env.e g.g1 g.g2 ≠ 0)
    (hnd : g.env.ndebug = false) (hready : g.ctx.ready = true) (s : Bytes) (p : Policy)
    (hp : createPolicyTree g.env.mktime s = .ok (some p)) (al : AttrList) (hsat : Satisfies al.attrs p)
    (hrows : (rowLabels g.env.md p).Nodup) (hattrs : NoClash g.env.md al.attrs) :
    ∃ A : Adv q Policy AttrList, A.questions = 1 ∧
      (∀ c : Coins q, Plays (KpSeen g c) g.env.e (g.secret c) none [] A true) ∧
      Nat.card { z : (CoinIx m T R n ds → ZMod q) × ZMod q //
        Plays (KpSeen g (Coins.of z.1)) g.env.e (z.2 • g.env.e g.g1 g.g2) none [] A true } =
      q ^ Fintype.card (CoinIx m T R n ds) := by
  obtain ⟨B, hB⟩ := C113_kp_authorised (q := q) g hb hnd hready al [p] 0 s p rfl hp hsat hrows hattrs
  obtain ⟨hcomp, t, hroot, hao, hbin, hfr, hidx⟩ := accepted_shape hp
  have hview := fun c : Coins q => kpGame_view g hnd hready al [p] [(p.compact, rowsOf p)] (by simp) (by
    intro i p' k h1 h2
    cases i with
    | zero =>
      simp only [List.getElem?_cons_zero, Option.some.injEq] at h1 h2
      subst h1; subst h2
      exact ⟨t, rfl, hroot, hao.pos, hidx, rowsOf_eq hroot⟩
    | succ i => simp at h1) c
  have hh : ∀ (c : Coins q) (k : ZMod q) v, KpGame g al [p] c v →
      ((Query.gt B (-1)).holds g.env.e v (k • g.env.e g.g1 g.g2) ↔ -(c.s * c.alpha) + 1 * k = 0) := by
    intro c k v hv
    have : B.run g.env.e v + (-1 : ZMod q) • k • g.env.e g.g1 g.g2 = (-(-(c.s * c.alpha) + 1 * k)) • g.env.e g.g1 g.g2 := by
      rw [hB c v hv, Game.secret]; module
    simp only [Query.holds, this, smul_eq_zero, hE, or_false, neg_eq_zero]
  refine ⟨.key p (.challenge al (.ask (.gt B (-1)) (.guess true) (.guess false))), rfl, ?_, ?_⟩
  · intro c
    refine .key (.challenge (.yes (v := _) ((hview c _).mpr rfl) ?_ (.guess _ _ _)))
    have : g.secret c = (c.s * c.alpha) • g.env.e g.g1 g.g2 := by rw [Game.secret, smul_smul]
    simp only [Option.isSome_some, if_true, this]
    rw [hh c _ _ ((hview c _).mpr rfl)]
    ring
  · rw [← card_random (m := m) (T := T) (R := R) (n := n) (ds := ds) (fun c : Coins q => -(c.s * c.alpha)) (b := 1)
      one_ne_zero]
    refine Nat.card_congr (Equiv.subtypeEquivRight ?_)
    intro z
    constructor
    · intro h
      cases h with
      | key h =>
        cases h with
        | challenge h =>
          cases h with
          | yes hv hq _ =>
            simp only [Option.isSome_some, if_true] at hq
            exact (hh _ _ _ hv).mp hq
          | no _ _ h => cases h
    · intro h
      refine .key (.challenge (.yes (v := _) ((hview _ _).mpr rfl) ?_ (.guess _ _ _)))
      simp only [Option.isSome_some, if_true]
      exact (hh _ _ _ ((hview _ _).mpr rfl)).mpr h

/-- The hypotheses of `C115_cp_indistinguishable` are met: an attacker that asks for a key for `a`, then a question,
then, depending on the answer, for a key for `b` and `c` before the ciphertext or after it, then two more questions. -/
example (S : StdSort) (Q1 Q2 Q3 : Query 101) : ∃ p, createPolicyTree Toy.mk0 b!"a and (b or c)" = .ok (some p) ∧
    let g := CollEx.game S
    let ds := ([b!"a", b!"b", b!"c"].map fun x => g.env.md (g.k ++ x)).toFinset
    let fin : Adv 101 AttrList Policy := .ask Q2 (.ask Q3 (.guess true) (.guess false)) (.guess false)
    let A : Adv 101 AttrList Policy := .key { attrs := [b!"a"] } (.ask Q1
      (.key { attrs := [b!"b", b!"c"] } (.challenge p fin)) (.challenge p (.key { attrs := [b!"b", b!"c"] } fin)))
    A.Admissible (CpFair g 101 5 3 2 ds) none [] ∧ A.questions = 3 := by
  obtain ⟨p, t, hp, hroot, hl, hs, hd, u1, u2, u3⟩ := CollEx.policy
  refine ⟨p, hp, ?_, rfl⟩
  have hfair : ∀ als : List AttrList, als.length ≤ 2 →
      (∀ al ∈ als, al.attrs = [b!"a"] ∨ al.attrs = [b!"b", b!"c"]) → ∀ ch, ch = none ∨ ch = some p →
      CpFair (CollEx.game S) 101 5 3 2
        ([b!"a", b!"b", b!"c"].map fun x => (CollEx.game S).env.md ((CollEx.game S).k ++ x)).toFinset ch als := by
    intro als hlen hals ch hch
    refine ⟨hlen, ?_⟩
    intro p' h'
    rcases hch with rfl | rfl
    · simp at h'
    simp only [Option.some.injEq] at h'
    subst h'
    refine ⟨⟨_, hp⟩, ?_, CollEx.covers S hp hroot hl hd, CollEx.noClash S ?_, ?_⟩
    · intro t' h'
      rw [hroot] at h'
      simp only [Option.some.injEq] at h'
      subst h'
      exact hs
    · intro x hx
      simp only [policyNames, hroot, hl, List.mem_append, List.mem_flatMap] at hx
      rcases hx with h | ⟨al, h1, h2⟩
      · revert h x; decide
      · rcases hals al h1 with e | e <;> rw [e] at h2 <;> revert h2 x <;> decide
    · rintro al hal ⟨t', h', h''⟩
      rw [hroot] at h'
      simp only [Option.some.injEq] at h'
      subst h'
      rcases hals al hal with e | e
      · rw [e, u1] at h''; simp at h''
      · rw [e, u2] at h''; simp at h''
  have h1 : ∀ al ∈ ([] ++ [({ attrs := [b!"a"] } : AttrList)]), al.attrs = [b!"a"] ∨ al.attrs = [b!"b", b!"c"] := by simp
  have h2 : ∀ al ∈ ([] ++ [({ attrs := [b!"a"] } : AttrList)] ++ [({ attrs := [b!"b", b!"c"] } : AttrList)]),
      al.attrs = [b!"a"] ∨ al.attrs = [b!"b", b!"c"] := by simp
  exact ⟨hfair _ (by simp) h1 _ (.inl rfl), ⟨hfair _ (by simp) h2 _ (.inl rfl), rfl, hfair _ (by simp) h2 _ (.inr rfl),
    ⟨trivial, trivial⟩, trivial⟩, rfl, hfair _ (by simp) h1 _ (.inr rfl), hfair _ (by simp) h2 _ (.inr rfl),
    ⟨trivial, trivial⟩, trivial⟩

/-- The hypotheses of `C115_kp_indistinguishable` are met: two keys for `a and (b or c)`, one before and one after the
ciphertext for `b` and `c`. -/
example (S : StdSort) (Q1 Q2 : Query 101) : ∃ p, createPolicyTree Toy.mk0 b!"a and (b or c)" = .ok (some p) ∧
    let g := CollEx.game S
    let ds := ([b!"a", b!"b", b!"c"].map fun x => g.env.md (g.k ++ x)).toFinset
    let A : Adv 101 Policy AttrList := .key p (.ask Q1 (.guess true) (.challenge { attrs := [b!"b", b!"c"] }
      (.key p (.ask Q2 (.guess true) (.guess false)))))
    A.Admissible (KpFair g 101 2 5 3 ds) none [] ∧ A.questions = 2 := by
  obtain ⟨p, t, hp, hroot, hl, hs, hd, u1, u2, u3⟩ := CollEx.policy
  refine ⟨p, hp, ?_, rfl⟩
  have hfair : ∀ ps : List Policy, ps.length ≤ 2 → (∀ p' ∈ ps, p' = p) → ∀ ch : Option AttrList,
      ch = none ∨ ch = some { attrs := [b!"b", b!"c"] } → KpFair (CollEx.game S) 101 2 5 3
        ([b!"a", b!"b", b!"c"].map fun x => (CollEx.game S).env.md ((CollEx.game S).k ++ x)).toFinset ch ps := by
    intro ps hlen hps ch hch
    refine ⟨hlen, ?_, ?_⟩
    · intro p' h'
      rw [hps p' h']
      refine ⟨⟨_, hp⟩, ?_, CollEx.covers S hp hroot hl hd⟩
      intro t' h'
      rw [hroot] at h'
      simp only [Option.some.injEq] at h'
      subst h'
      exact hs
    · intro al hal
      rcases hch with rfl | rfl
      · simp at hal
      simp only [Option.some.injEq] at hal
      subst hal
      refine ⟨CollEx.noClash S ?_, ?_⟩
      · intro x hx
        simp only [List.mem_append, List.mem_flatMap] at hx
        rcases hx with ⟨p', h1, h2⟩ | h
        · rw [hps p' h1] at h2
          simp only [policyNames, hroot, hl] at h2
          revert h2 x; decide
        · revert h x; decide
      · intro p' h1
        rw [hps p' h1]
        rintro ⟨t', h', h''⟩
        rw [hroot] at h'
        simp only [Option.some.injEq] at h'
        subst h'
        rw [u2] at h''; simp at h''
  exact ⟨hfair _ (by simp) (by simp) _ (.inl rfl), trivial, rfl, hfair _ (by simp) (by simp) _ (.inr rfl),
    hfair _ (by simp) (by simp) _ (.inr rfl), trivial, trivial⟩

end Abe.Scheme
