import Verif.Proof.PairStack
/-!
# C142: decryption needs room on the stack for each row it uses, and no more

`multi_pairing` (src/abe/zpairing.cpp:197-217) has two arrays on the stack with one entry for each row. `Uses` and `Meets` are in
Verif/Spec/PairStack.lean.
-/
set_option linter.unusedSimpArgs false
set_option linter.unusedSectionVars false
set_option autoImplicit false
namespace Abe
namespace PairStack
open Scheme Cpa

variable {G1 G2 GT : Type} {q : Nat} [Fact q.Prime]
variable [AddCommGroup G1] [Module (ZMod q) G1] [AddCommGroup G2] [Module (ZMod q) G2] [AddCommGroup GT]
  [Module (ZMod q) GT]

theorem Meets.unique {sch : Scheme} {key ct : Container G1 G2 GT} {s s' : Bytes} {a a' : List Bytes} (h : Meets sch key ct s a)
    (h' : Meets sch key ct s' a') : s = s' ∧ a = a' := by
  cases sch
  all_goals
    obtain ⟨al, h1, rfl, h2⟩ := h
    obtain ⟨al', h1', rfl, h2'⟩ := h'
    rw [h1] at h1'
    rw [h2] at h2'
    cases h1'
    cases h2'
    exact ⟨rfl, rfl⟩

theorem Uses.unique {env : Env G1 G2 GT} {s : Bytes} {a : List Bytes} {n m : Nat} (h : Uses q env s a n) (h' : Uses q env s a m) : n = m := by
  obtain ⟨p, o, p', h1, h2, rfl⟩ := h
  obtain ⟨p1, o1, p1', h1', h2', rfl⟩ := h'
  rw [h1] at h1'
  cases h1'
  rw [h2] at h2'
  cases h2'
  rfl

/-- The stack makes no difference unless the rows do not fit, for all keys and ciphertexts, wherever they come from: with the arrays,
decryption does the same as without, or is undefined since the arrays for the rows it uses are larger than the stack. -/
theorem C142_only_rows (z : Sizes) (stack : Nat) (env : Env G1 G2 GT) (sch : Scheme) (c : Ctx G1 G2 GT) (keyID : Bytes)
    (ct : Ciphertext G1 G2 GT) :
    decrypt q z stack env sch c keyID ct = Scheme.decrypt q env sch c keyID ct ∨
    (decrypt q z stack env sch c keyID ct = .ub ∧ ∃ key text attrs n, (c.ks.getSecretKey keyID).1 = some key ∧
      Meets sch key.comps ct.comps text attrs ∧ Uses q env text attrs n ∧ stack < n * z.pair) := by
  rcases decrypt_against (q := q) z stack env sch c keyID ct with ⟨n, ⟨key, text, attrs, hk, hm, hu⟩, hn, hx⟩ | ⟨hx, -⟩
  · exact .inr ⟨hx, key, text, attrs, n, hk, hm, hu, by omega⟩
  · exact .inl hx

/-- A ciphertext that decrypts without limit decrypts exactly on the stacks with room for a pair of group elements for each row,
and is undefined on all others. -/
theorem C142_exact (env : Env G1 G2 GT) (sch : Scheme) (c c' : Ctx G1 G2 GT) (keyID : Bytes) (ct : Ciphertext G1 G2 GT) (m : Bytes)
    (h : Scheme.decrypt q env sch c keyID ct = .ok (none, m, c')) :
    ∃ key text attrs n, (c.ks.getSecretKey keyID).1 = some key ∧ Meets sch key.comps ct.comps text attrs ∧ Uses q env text attrs n ∧
      ∀ (z : Sizes) (stack : Nat), decrypt q z stack env sch c keyID ct = if n * (z.g1 + z.g2) ≤ stack then .ok (none, m, c') else .ub := by
  rcases decrypt_against (q := q) ⟨0, 0⟩ 0 env sch c keyID ct with ⟨n, -, hn, -⟩ | ⟨-, hy⟩
  · exact absurd (Nat.le_of_eq (by simp [Sizes.pair])) hn
  · obtain ⟨n, ⟨key, text, attrs, hk, hm, hu⟩, -⟩ := hy _ h rfl
    refine ⟨key, text, attrs, n, hk, hm, hu, fun z stack => ?_⟩
    have uniq : ∀ n', (∃ key text attrs, (c.ks.getSecretKey keyID).1 = some key ∧ Meets sch key.comps ct.comps text attrs ∧
        Uses q env text attrs n') → n' = n := by
      rintro n' ⟨key', text', attrs', hk', hm', hu'⟩
      rw [hk] at hk'
      cases hk'
      obtain ⟨rfl, rfl⟩ := hm.unique hm'
      exact hu'.unique hu
    rcases decrypt_against (q := q) z stack env sch c keyID ct with ⟨n', hP, hn, hx⟩ | ⟨hx, hy⟩
    · cases uniq n' hP
      exact hx.trans (if_neg hn).symm
    · obtain ⟨n', hP, hn⟩ := hy _ h rfl
      cases uniq n' hP
      exact (hx.trans h).trans (if_pos hn).symm

/-- Eleven pairs for each byte of the policy are always enough, for all keys and ciphertexts. -/
theorem C142_eleven_per_byte (z : Sizes) (stack : Nat) (env : Env G1 G2 GT) (hnd : env.ndebug = false) (sch : Scheme) (c : Ctx G1 G2 GT)
    (keyID : Bytes) (ct : Ciphertext G1 G2 GT)
    (hroom : ∀ key text attrs, (c.ks.getSecretKey keyID).1 = some key → Meets sch key.comps ct.comps text attrs →
      11 * text.length * z.pair ≤ stack) :
    decrypt q z stack env sch c keyID ct = Scheme.decrypt q env sch c keyID ct := by
  rcases C142_only_rows (q := q) z stack env sch c keyID ct with h | ⟨-, key, text, attrs, n, hk, hm, hu, hn⟩
  · exact h
  · have h1 := hroom key text attrs hk hm
    have h2 := Nat.mul_le_mul_right z.pair (uses_le hnd hu)
    omega

/-- The rows that are used are one way to satisfy the policy. -/
theorem C142_rows_are_a_way (env : Env G1 G2 GT) (hnd : env.ndebug = false) (s : Bytes) (e : Expr) (hs : PolicyText env.mktime s e)
    (hpct : e.Unnumbered) (attrs : List Bytes) (n : Nat) (h : Uses q env s attrs n) :
    ∃ p t, createPolicyTree env.mktime s = .ok (some p) ∧ p.root = some t ∧ Ways (· ∈ attrs) t n := by
  obtain ⟨p, t, d', h1, h2, h3, hao, hbin, hfr, hidx, hn, htx, -, -, -⟩ := parsed hs
  refine ⟨p, t, h1, h2, ?_⟩
  obtain ⟨pol, o, p', g1, g2, rfl⟩ := h
  rw [h1] at g1
  cases g1
  rw [hnd] at g2
  cases hsat : sat attrs t with
  | false =>
    obtain ⟨t', -, g3⟩ := recover_unsat (F := ZMod q) env.sort {} p t attrs h2 hao hfr hsat
    rw [g3] at g2
    cases g2
  | true =>
    obtain ⟨o', p1, g3, g4⟩ := C138_rows_are_a_way (F := ZMod q) env.sort {} p t attrs h2 hao hfr (.inl hbin) (fun l hl _ => hidx l hl)
      (uniqueLabel_nodup (hpct.labels htx) hn) hsat
    rw [g3] at g2
    cases g2
    exact g4

/-- What the key and the ciphertext of an honest run bring together. -/
theorem honest_meets {env : Env G1 G2 GT} {sch : Scheme} {c1 c2 cE cE' : Ctx G1 G2 GT} {keyID mpkID mskID idE : Bytes} {kr er : Rand q}
    {p : Policy} {al : AttrList} {dk : Key G1 G2 GT} {ct ct' : Ciphertext G1 G2 GT} {m : Bytes}
    (hk : Scheme.generateKey env sch c1 (match sch with | .cp => .attrs al | .kp => .policy p) keyID mpkID mskID kr = .ok (none, c2))
    (hdk : (c2.ks.getSecretKey keyID).1 = some dk)
    (he : Scheme.encrypt env sch cE idE (match sch with | .cp => .policy p | .kp => .attrs al) m er ct = .ok (.ok ct', cE')) :
    Meets sch dk.comps ct'.comps p.compact al.attrs := by
  obtain ⟨mpk, msk, d, -, -, hd, rfl⟩ := generateKey_shape hk
  have e : dk = newKey c1.alg keyID kr.uid d := by
    have h := sec_addSec ((c1.ks.getPublicKey mpkID).2.getSecretKey mskID).2 keyID (newKey c1.alg keyID kr.uid d)
    rw [show (((((c1.ks.getPublicKey mpkID).2.getSecretKey mskID).2.addKey keyID (newKey c1.alg keyID kr.uid d) .sec).getSecretKey keyID).1) =
      some dk from hdk] at h
    exact Option.some.inj h
  subst e
  have h1 := keyBody_input hd
  obtain ⟨-, h2⟩ := encrypt_input_kept he
  cases sch with
  | cp =>
    rcases h1 with ⟨l, -, h1, h3⟩ | ⟨_, h, -⟩
    · rcases h2 with ⟨p', -, h2, h4⟩ | ⟨_, h, -⟩
      · cases h1
        cases h2
        refine ⟨al, ?_, rfl, getBytes_of h4⟩
        show (Container.getComponent d b!"input").1 = _
        simp only [Container.getComponent, h3]
      · cases h
    · cases h
  | kp =>
    rcases h1 with ⟨_, h, -⟩ | ⟨p', -, h1, h3⟩
    · cases h
    · rcases h2 with ⟨_, h, -⟩ | ⟨l, -, h2, h4⟩
      · cases h
      · cases h1
        cases h2
        refine ⟨al, ?_, rfl, getBytes_of h3⟩
        simp only [Container.getComponent, h4]

/-- Ciphertext-policy: an honest ciphertext with an honest key comes back exactly on the stacks with room for the rows, whose number is
that of a way to satisfy the policy. -/
theorem C142_cp_round_trip (env : Env G1 G2 GT) (hb : Bilinear q env.e) (hnd : env.ndebug = false) (hmd : ∀ x, (env.md x).length = 32)
    (c c1 : Ctx G1 G2 GT) (mpkID mskID keyID : Bytes) (pr : ParamRand q G1 G2) (kr er : Rand q)
    (hgen : generateParams env .cp c mpkID mskID pr = .ok (none, c1))
    (s l : Bytes) (e : Expr) (a : AExpr) (hs : PolicyText env.mktime s e) (hl : ListText env.mktime l a)
    (hpct : e.Unnumbered) (ht : e.trueFor env.mktime a) (ct : Ciphertext G1 G2 GT) (m : Bytes) :
    ∃ p t al, createPolicyTree env.mktime s = .ok (some p) ∧ p.root = some t ∧ createAttributeList env.mktime l = .ok (some al) ∧
      (NoClash env.md (rowNames p) → NoClash env.md al.attrs →
      ∃ c2 ct' c3 c4 n, Scheme.generateKey env .cp c1 (.attrs al) keyID mpkID mskID kr = .ok (none, c2) ∧
        Scheme.encrypt env .cp c2 mpkID (.policy p) m er ct = .ok (.ok ct', c3) ∧ Ways (· ∈ al.attrs) t n ∧
        ∀ (z : Sizes) (stack : Nat), decrypt q z stack env .cp c2 keyID ct' = if n * (z.g1 + z.g2) ≤ stack then .ok (none, m, c4) else .ub) := by
  obtain ⟨p, al, h1, h2, h3, h4⟩ := texts hs hl hpct
  obtain ⟨hcomp, t, hroot, -⟩ := accepted_shape h1
  refine ⟨p, t, al, h1, hroot, h2, fun hr ha => ?_⟩
  obtain ⟨mpk, c2, dk, a1, a2, a3, a4, a5, a6⟩ := C46_cp_round_trip env hb hnd hmd c c1 mpkID mskID keyID pr kr er
    hgen s p h1 al (rowLabels_nodup h3 hr) ha (h4.mpr ht) ct m
  obtain ⟨ct', c3, c4, b1, b2⟩ := a6 c2 c2 mpkID keyID a5 a5 a4 a3
  obtain ⟨key, text, attrs, n, d1, d2, d3, d4⟩ := C142_exact (q := q) env .cp c2 c4 keyID ct' m b2
  rw [a3] at d1
  cases d1
  obtain ⟨rfl, rfl⟩ := d2.unique (honest_meets (sch := .cp) a2 a3 b1)
  rw [hcomp] at d3
  obtain ⟨p', t', f1, f2, f3⟩ := C142_rows_are_a_way env hnd s e hs hpct _ n d3
  rw [h1] at f1
  cases f1
  rw [hroot] at f2
  cases f2
  exact ⟨c2, ct', c3, c4, n, a2, b1, f3, d4⟩

/-- Key-policy: the same with the policy in the key. -/
theorem C142_kp_round_trip (env : Env G1 G2 GT) (hb : Bilinear q env.e) (hnd : env.ndebug = false) (hmd : ∀ x, (env.md x).length = 32)
    (c c1 : Ctx G1 G2 GT) (mpkID mskID keyID : Bytes) (pr : ParamRand q G1 G2) (kr er : Rand q)
    (hgen : generateParams env .kp c mpkID mskID pr = .ok (none, c1))
    (s l : Bytes) (e : Expr) (a : AExpr) (hs : PolicyText env.mktime s e) (hl : ListText env.mktime l a)
    (hpct : e.Unnumbered) (ht : e.trueFor env.mktime a) (ct : Ciphertext G1 G2 GT) (m : Bytes) :
    ∃ p t al, createPolicyTree env.mktime s = .ok (some p) ∧ p.root = some t ∧ createAttributeList env.mktime l = .ok (some al) ∧
      (NoClash env.md (rowNames p) → NoClash env.md al.attrs →
      ∃ c2 ct' c3 c4 n, Scheme.generateKey env .kp c1 (.policy p) keyID mpkID mskID kr = .ok (none, c2) ∧
        Scheme.encrypt env .kp c2 mpkID (.attrs al) m er ct = .ok (.ok ct', c3) ∧ Ways (· ∈ al.attrs) t n ∧
        ∀ (z : Sizes) (stack : Nat), decrypt q z stack env .kp c2 keyID ct' = if n * (z.g1 + z.g2) ≤ stack then .ok (none, m, c4) else .ub) := by
  obtain ⟨p, al, h1, h2, h3, h4⟩ := texts hs hl hpct
  obtain ⟨hcomp, t, hroot, -⟩ := accepted_shape h1
  refine ⟨p, t, al, h1, hroot, h2, fun hr ha => ?_⟩
  obtain ⟨mpk, c2, dk, a1, a2, a3, a4, a5, a6⟩ := C46_kp_round_trip env hb hnd hmd c c1 mpkID mskID keyID pr kr er
    hgen s p h1 al (rowLabels_nodup h3 hr) ha (h4.mpr ht) ct m
  obtain ⟨ct', c3, c4, b1, b2⟩ := a6 c2 c2 mpkID keyID a5 a5 a4 a3
  obtain ⟨key, text, attrs, n, d1, d2, d3, d4⟩ := C142_exact (q := q) env .kp c2 c4 keyID ct' m b2
  rw [a3] at d1
  cases d1
  obtain ⟨rfl, rfl⟩ := d2.unique (honest_meets (sch := .kp) a2 a3 b1)
  rw [hcomp] at d3
  obtain ⟨p', t', f1, f2, f3⟩ := C142_rows_are_a_way env hnd s e hs hpct _ n d3
  rw [h1] at f1
  cases f1
  rw [hroot] at f2
  cases f2
  exact ⟨c2, ct', c3, c4, n, a2, b1, f3, d4⟩

/-- `|a` -/
def justA : AExpr := .pre (.item (.leaf b!"a"))

theorem listA (mk : Mktime) : ListText mk b!"|a" justA where
  toks := by decide +kernel
  canon := by decide
  valid := by decide
  items := by
    refine ⟨by simp [justA, AExpr.items, Item.value], ?_⟩
    intro s n h
    simp [justA, AExpr.items] at h

/-- No stack is enough for all policies. With the policy `a and a and … and a` with `n` operators, a key for `a` alone and an honest
ciphertext, decryption is undefined on each stack without room for `n + 1` pairs. -/
theorem C142_no_stack_is_enough (env : Env G1 G2 GT) (hb : Bilinear q env.e) (hnd : env.ndebug = false)
    (hmd : ∀ x, (env.md x).length = 32) (c c1 : Ctx G1 G2 GT) (mpkID mskID keyID : Bytes) (pr : ParamRand q G1 G2) (kr er : Rand q)
    (hgen : generateParams env .cp c mpkID mskID pr = .ok (none, c1)) (ct : Ciphertext G1 G2 GT) (m : Bytes) (z : Sizes) (stack n : Nat)
    (hn : stack < (n + 1) * (z.g1 + z.g2)) :
    ∃ p al, createPolicyTree env.mktime (andChain n) = .ok (some p) ∧ createAttributeList env.mktime b!"|a" = .ok (some al) ∧
      (NoClash env.md (rowNames p) → NoClash env.md al.attrs →
      ∃ c2 ct' c3 c4, Scheme.generateKey env .cp c1 (.attrs al) keyID mpkID mskID kr = .ok (none, c2) ∧
        Scheme.encrypt env .cp c2 mpkID (.policy p) m er ct = .ok (.ok ct', c3) ∧
        Scheme.decrypt q env .cp c2 keyID ct' = .ok (none, m, c4) ∧ decrypt q z stack env .cp c2 keyID ct' = .ub) := by
  obtain ⟨p, t, al, h1, h2, h3, h4⟩ := C142_cp_round_trip env hb hnd hmd c c1 mpkID mskID keyID pr kr er hgen _ _ _ _
    (andc_policy env.mktime n) (listA env.mktime) (andc_noPercent n) (andc_true env.mktime justA (by simp [justA, AExpr.items]) n) ct m
  refine ⟨p, al, h1, h3, fun hr ha => ?_⟩
  obtain ⟨c2, ct', c3, c4, k, g1, g2, g3, g4⟩ := h4 hr ha
  obtain ⟨p', t', d', f1, f2, f3, -⟩ := parsed (andc_policy env.mktime n)
  rw [h1] at f1
  cases f1
  rw [h2] at f2
  cases f2
  have hk := andc_ways n _ _ _ _ f3 g3
  refine ⟨c2, ct', c3, c4, g1, g2, ?_, ?_⟩
  · have h0 := g4 ⟨0, 0⟩ 0
    rw [if_pos (by simp)] at h0
    rcases C142_only_rows (q := q) ⟨0, 0⟩ 0 env .cp c2 keyID ct' with h | ⟨h, -⟩
    · rw [← h, h0]
    · rw [h] at h0
      cases h0
  · rw [g4 z stack, if_neg (by rw [hk]; omega)]

namespace PairStackEx

/-- `a and (b or c)` for `|a|c` on a stack with room for two pairs, and on a smaller one. -/
example (S : StdSort) (pr : ParamRand 5 (ZMod 5) (ZMod 5)) (kr er : Rand 5) (ct : Ciphertext (ZMod 5) (ZMod 5) (ZMod 5)) (m : Bytes) :
    ∃ c2 ct' c4, decrypt 5 ⟨96, 192⟩ 576 (Toy.env Toy.mk0 S) .cp c2 b!"dk" ct' = .ok (none, m, c4) ∧
      decrypt 5 ⟨96, 192⟩ 575 (Toy.env Toy.mk0 S) .cp c2 b!"dk" ct' = .ub := by
  obtain ⟨c1, hg⟩ := Toy.gen Toy.mk0 S .cp pr
  obtain ⟨p, t, al, h1, h2, h3, h4⟩ := C142_cp_round_trip (q := 5) (Toy.env Toy.mk0 S) (Toy.bilinear Toy.mk0 S) rfl (Toy.digest Toy.mk0 S) _ c1
    b!"mpk" b!"msk" b!"dk" pr kr er hg _ _ _ _ (Toy.text3 Toy.mk0) (Toy.list3 Toy.mk0) Toy.pct3 (Toy.true3 Toy.mk0) ct m
  obtain ⟨c2, ct', c3, c4, n, -, -, g3, g4⟩ := h4 (by rw [Toy.names3 h1]; exact Toy.short_noClash (by decide))
    (by rw [Toy.attrs3 Toy.mk0 h3]; exact Toy.short_noClash (by decide))
  refine ⟨c2, ct', c4, ?_⟩
  have hn : n = 2 := by
    obtain ⟨p', t', d', f1, f2, f3, -⟩ := parsed (Toy.text3 Toy.mk0)
    rw [show createPolicyTree Toy.mk0 b!"a and (b or c)" = _ from h1] at f1
    cases f1
    rw [h2] at f2
    cases f2
    cases f3
    cases g3 with
    | all w1 w2 =>
      cases w1
      cases w2 with
      | all w2 w3 =>
        cases w3
        cases w2 with
        | one hm w =>
          simp only [List.mem_cons, List.not_mem_nil, or_false] at hm
          rcases hm with rfl | rfl <;> cases w <;> rfl
  subst hn
  exact ⟨(g4 _ _).trans (if_pos (by decide)), (g4 _ _).trans (if_neg (by decide))⟩

/-- The hypotheses of `C142_no_stack_is_enough` are met for the default stack of 8 MiB. -/
example (S : StdSort) (pr : ParamRand 5 (ZMod 5) (ZMod 5)) :
    (8 * 2 ^ 20 < (29127 + 1) * (96 + 192)) ∧
    ∃ c1, generateParams (Toy.env Toy.mk0 S) .cp (⟨101, false, {}⟩ : Ctx (ZMod 5) (ZMod 5) (ZMod 5)) b!"mpk" b!"msk" pr = .ok (none, c1) :=
  ⟨by decide, Toy.gen Toy.mk0 S .cp pr⟩

end PairStackEx
end PairStack
end Abe
