import Verif.Props.Mixed
import Verif.Props.Scheme
/-!
# Keys and ciphertexts for lists that say several things about the same name (C161)
-/
set_option linter.unusedSimpArgs false
set_option linter.unusedSectionVars false
set_option autoImplicit false
namespace Abe.Scheme
variable {G1 G2 GT : Type} {q : Nat} [Fact q.Prime]
variable [AddCommGroup G1] [Module (ZMod q) G1] [AddCommGroup G2] [Module (ZMod q) G2] [AddCommGroup GT]
  [Module (ZMod q) GT]
open Mixed

theorem mixed_texts (S : StdSort) {mk : Mktime} {s l : Bytes} {e : Expr} {a : AExpr} (hs : PolicyText mk s e)
    (hl : effective (lex l) = a.toks) (hc : a.canon = true) (hv : a.valid = true)
    (hpct : e.Unnumbered) : ∃ p al, createPolicyTree mk s = .ok (some p) ∧ createAttributeList mk l = .ok (some al) ∧
      (rowNames p).Nodup ∧ (Satisfies al.attrs p ↔ mixedFor mk e a) := by
  obtain ⟨p, t, d', h1, h2, h3, g4, -, g6, -, hn, htx, -, -, htk⟩ := parsed hs
  obtain ⟨p', t', al, r, n, t'', k1, k2, k3, k4, k5⟩ := C160_meaning S s l e a hs hl hc hv
  rw [h1] at k1
  simp only [Res.ok.injEq, Option.some.injEq] at k1
  subst k1
  rw [h2] at k2
  simp only [Option.some.injEq] at k2
  subst k2
  obtain ⟨n', t3, hc', -⟩ := C03_check_decides_formula S t al.attrs g4 g6
  rw [hc'] at k4
  simp only [Res.ok.injEq, Prod.mk.injEq] at k4
  obtain ⟨⟨rfl, -⟩, -⟩ := k4
  refine ⟨p, al, h1, k3, ?_, ?_⟩
  · simp only [rowNames, h2]
    exact uniqueLabel_nodup (hpct.labels htx) hn
  · refine Iff.trans ?_ k5
    constructor
    · rintro ⟨t', ht', hsat⟩
      rw [h2] at ht'
      simp only [Option.some.injEq] at ht'
      subst ht'
      exact hsat
    · intro h
      exact ⟨t, h2, h⟩

/-- C161. The whole story for any list, ciphertext-policy: a key for the list opens a message for the policy if the
formula is true of what stays of the list, and otherwise decryption fails with an empty output. -/
theorem C161_cp_any_list (env : Env G1 G2 GT) (hb : Bilinear q env.e) (hnd : env.ndebug = false)
    (hmd : ∀ x, (env.md x).length = 32)
    (c c1 : Ctx G1 G2 GT) (mpkID mskID keyID : Bytes) (pr : ParamRand q G1 G2) (kr er : Rand q)
    (hgen : generateParams env .cp c mpkID mskID pr = .ok (none, c1))
    (s l : Bytes) (e : Expr) (a : AExpr) (hs : PolicyText env.mktime s e) (hl : effective (lex l) = a.toks)
    (hc : a.canon = true) (hv : a.valid = true) (hpct : e.Unnumbered) (ct : Ciphertext G1 G2 GT) (plaintext : Bytes) :
    ∃ p al, createPolicyTree env.mktime s = .ok (some p) ∧ createAttributeList env.mktime l = .ok (some al) ∧
      (NoClash env.md (rowNames p) → NoClash env.md al.attrs →
      ∃ mpk c2 dk, (c1.ks.getPublicKey mpkID).1 = some mpk ∧
        generateKey env .cp c1 (.attrs al) keyID mpkID mskID kr = .ok (none, c2) ∧
        (c2.ks.getSecretKey keyID).1 = some dk ∧
        ∀ (cE cD : Ctx G1 G2 GT) (idE idD : Bytes), cE.ready = true → cD.ready = true →
          (cE.ks.getPublicKey idE).1 = some mpk → (cD.ks.getSecretKey idD).1 = some dk →
          ∃ ct' cE' cD', encrypt env .cp cE idE (.policy p) plaintext er ct = .ok (.ok ct', cE') ∧
            (mixedFor env.mktime e a → decrypt q env .cp cD idD ct' = .ok (none, plaintext, cD')) ∧
            (¬ mixedFor env.mktime e a → decrypt q env .cp cD idD ct' = .ok (some .decryptionFailed, [], cD'))) := by
  obtain ⟨p, al, h1, h2, h3, h4⟩ := mixed_texts env.sort hs hl hc hv hpct
  refine ⟨p, al, h1, h2, ?_⟩
  intro hr ha
  by_cases ht : mixedFor env.mktime e a
  · obtain ⟨mpk, c2, dk, a1, a2, a3, a4, a5, a6⟩ := C46_cp_round_trip env hb hnd hmd c c1 mpkID mskID keyID pr kr er
      hgen s p h1 al (rowLabels_nodup h3 hr) ha (h4.mpr ht) ct plaintext
    refine ⟨mpk, c2, dk, a1, a2, a3, ?_⟩
    intro cE cD idE idD r1 r2 r3 r4
    obtain ⟨ct', cE', cD', b1, b2⟩ := a6 cE cD idE idD r1 r2 r3 r4
    exact ⟨ct', cE', cD', b1, fun _ => b2, fun h => absurd ht h⟩
  · obtain ⟨mpk, c2, dk, a1, a2, a3, a4, a5, a6⟩ := C47_cp_end_to_end env hnd hmd c c1 mpkID mskID keyID pr kr er
      hgen s p h1 al (fun h => ht (h4.mp h)) ct plaintext
    refine ⟨mpk, c2, dk, a1, a2, a3, ?_⟩
    intro cE cD idE idD r1 r2 r3 r4
    obtain ⟨ct', cE', cD', b1, b2⟩ := a6 cE cD idE idD r1 r3 r4
    exact ⟨ct', cE', cD', b1, fun h => absurd h ht, fun _ => b2⟩

/-- C161. The same, key-policy. -/
theorem C161_kp_any_list (env : Env G1 G2 GT) (hb : Bilinear q env.e) (hnd : env.ndebug = false)
    (hmd : ∀ x, (env.md x).length = 32)
    (c c1 : Ctx G1 G2 GT) (mpkID mskID keyID : Bytes) (pr : ParamRand q G1 G2) (kr er : Rand q)
    (hgen : generateParams env .kp c mpkID mskID pr = .ok (none, c1))
    (s l : Bytes) (e : Expr) (a : AExpr) (hs : PolicyText env.mktime s e) (hl : effective (lex l) = a.toks)
    (hc : a.canon = true) (hv : a.valid = true) (hpct : e.Unnumbered) (ct : Ciphertext G1 G2 GT) (plaintext : Bytes) :
    ∃ p al, createPolicyTree env.mktime s = .ok (some p) ∧ createAttributeList env.mktime l = .ok (some al) ∧
      (NoClash env.md (rowNames p) → NoClash env.md al.attrs →
      ∃ mpk c2 dk, (c1.ks.getPublicKey mpkID).1 = some mpk ∧
        generateKey env .kp c1 (.policy p) keyID mpkID mskID kr = .ok (none, c2) ∧
        (c2.ks.getSecretKey keyID).1 = some dk ∧
        ∀ (cE cD : Ctx G1 G2 GT) (idE idD : Bytes), cE.ready = true → cD.ready = true →
          (cE.ks.getPublicKey idE).1 = some mpk → (cD.ks.getSecretKey idD).1 = some dk →
          ∃ ct' cE' cD', encrypt env .kp cE idE (.attrs al) plaintext er ct = .ok (.ok ct', cE') ∧
            (mixedFor env.mktime e a → decrypt q env .kp cD idD ct' = .ok (none, plaintext, cD')) ∧
            (¬ mixedFor env.mktime e a → decrypt q env .kp cD idD ct' = .ok (some .decryptionFailed, [], cD'))) := by
  obtain ⟨p, al, h1, h2, h3, h4⟩ := mixed_texts env.sort hs hl hc hv hpct
  refine ⟨p, al, h1, h2, ?_⟩
  intro hr ha
  by_cases ht : mixedFor env.mktime e a
  · obtain ⟨mpk, c2, dk, a1, a2, a3, a4, a5, a6⟩ := C46_kp_round_trip env hb hnd hmd c c1 mpkID mskID keyID pr kr er
      hgen s p h1 al (rowLabels_nodup h3 hr) ha (h4.mpr ht) ct plaintext
    refine ⟨mpk, c2, dk, a1, a2, a3, ?_⟩
    intro cE cD idE idD r1 r2 r3 r4
    obtain ⟨ct', cE', cD', b1, b2⟩ := a6 cE cD idE idD r1 r2 r3 r4
    exact ⟨ct', cE', cD', b1, fun _ => b2, fun h => absurd ht h⟩
  · obtain ⟨mpk, c2, dk, a1, a2, a3, a4, a5, a6⟩ := C47_kp_end_to_end env hnd hmd c c1 mpkID mskID keyID pr kr er
      hgen s p h1 al (fun h => ht (h4.mp h)) ct plaintext
    refine ⟨mpk, c2, dk, a1, a2, a3, ?_⟩
    intro cE cD idE idD r1 r2 r3 r4
    obtain ⟨ct', cE', cD', b1, b2⟩ := a6 cE cD idE idD r1 r3 r4
    exact ⟨ct', cE', cD', b1, fun h => absurd h ht, fun _ => b2⟩

/-- A list that uses `a` both as a plain attribute and as a number. -/
example (mk : Mktime) (S : StdSort) : PolicyText mk b!"a and (b or c)" Toy.e3 ∧ Toy.e3.Unnumbered ∧
    (∃ a : AExpr, effective (lex b!"a|a=3|c") = a.toks ∧ a.canon = true ∧ a.valid = true ∧ ¬ ItemsOk mk a.items ∧
      remaining [] a.items = [.leaf b!"a", .leaf b!"c"] ∧
      NoClash (Toy.env mk S).md [b!"a", b!"c"]) := by
  refine ⟨Toy.text3 mk, Toy.pct3, .cat (.item (.leaf b!"a")) (.cat (.item (.num b!"a" (.flex 3))) (.item (.leaf b!"c"))),
    by decide +kernel, by decide, by decide, ?_, by decide, Toy.short_noClash (by decide)⟩
  intro h
  exact h.2 b!"a" (.flex 3) (by simp [AExpr.items]) (by simp [AExpr.items])

/-- A formula of conditions on one number only. -/
theorem only_conds {mk : Mktime} {has : Bytes → Prop} {vals : Bytes → Nat → List Nat} : ∀ (e : Expr), e.plain = [] →
    (∀ c ∈ e.conds, (c.cond mk).mixed (vals c.base)) → e.mixed mk has vals
  | .leaf s, hp, _ => by simp [Expr.plain] at hp
  | .cond c, _, h => h c (by simp [Expr.conds])
  | .paren e, hp, h => only_conds e hp h
  | .or l r, hp, h => by
    simp only [Expr.plain, List.append_eq_nil_iff] at hp
    exact .inl (only_conds l hp.1 fun c hc => h c (by simp [Expr.conds, hc]))
  | .and l r, hp, h => by
    simp only [Expr.plain, List.append_eq_nil_iff] at hp
    exact ⟨only_conds l hp.1 fun c hc => h c (by simp [Expr.conds, hc]),
      only_conds r hp.2 fun c hc => h c (by simp [Expr.conds, hc])⟩

/-- Two values open everything: a list that gives a number a value and its complement makes every formula true
that has only conditions on this number, with this width and below the largest value, so a key for it opens
every ciphertext for such a policy (`C161_cp_any_list`). -/
theorem C161_two_values (mk : Mktime) (name : Bytes) (n m : NumSyn) (hn : n.valid = true)
    (hb : m.val.bits = n.val.bits) (hm : m.val.val.toNat = 2 ^ n.val.bits - 1 - n.val.val.toNat) (e : Expr)
    (hp : e.plain = [])
    (hc : ∀ c ∈ e.conds, c.base = name ∧ ∀ k ∈ (c.cond mk).nums, NumOk k ∧ k.bits = n.val.bits ∧
      k.val.toNat < 2 ^ n.val.bits - 1) :
    mixedFor mk e (.cat (.item (.num name n)) (.item (.num name m))) := by
  refine only_conds e hp fun c hcm => ?_
  obtain ⟨e1, e2⟩ := hc c hcm
  obtain ⟨hw, hv⟩ := NumSyn.fits hn
  have hr : remaining [] (AExpr.cat (.item (.num name n)) (.item (.num name m))).items = [.num name n, .num name m] := by
    simp [AExpr.items, remaining, Item.against]
  have hvals : valuesOf mk (remaining [] (AExpr.cat (.item (.num name n)) (.item (.num name m))).items) c.base n.val.bits =
      [n.val.val.toNat, m.val.val.toNat] := by
    rw [hr]
    simp [valuesOf, Item.value, e1, hb]
  refine C160_two_values (c.cond mk) _ n.val.val.toNat n.val.bits (width_le hw) hv ?_ ?_
    (fun k hk => ⟨(e2 k hk).1, (e2 k hk).2.1⟩) (fun k hk => (e2 k hk).2.2)
  · rw [hvals]; simp
  · rw [hvals]; simp [hm]

/-- `a=5#4|a=10#4` and the contradictory policy `a < 3#4 and a > 12#4`. -/
example (mk : Mktime) : mixedFor mk
    (.and (.cond (.cmp .lt b!"a" (.exp 3 4))) (.cond (.cmp .gt b!"a" (.exp 12 4))))
    (.cat (.item (.num b!"a" (.exp 5 4))) (.item (.num b!"a" (.exp 10 4)))) := by
  refine C161_two_values mk b!"a" (.exp 5 4) (.exp 10 4) (by decide) (by decide) (by decide) _ rfl ?_
  intro c hc
  simp only [Expr.conds, List.cons_append, List.nil_append, List.mem_cons, List.not_mem_nil, or_false] at hc
  rcases hc with rfl | rfl
  · refine ⟨rfl, ?_⟩
    simp only [CondSyn.cond, CmpOp.cond, NumCond.nums, List.mem_singleton, forall_eq]
    exact ⟨⟨by decide, by decide, by decide, by decide⟩, by decide, by decide⟩
  · refine ⟨rfl, ?_⟩
    simp only [CondSyn.cond, CmpOp.cond, NumCond.nums, List.mem_singleton, forall_eq]
    exact ⟨⟨by decide, by decide, by decide, by decide⟩, by decide, by decide⟩

end Abe.Scheme
