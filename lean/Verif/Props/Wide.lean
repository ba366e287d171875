import Verif.Props.LSSS
/-!
# AND gates with many inputs (C09)

`calculateCoefficient` multiplies with `result *= result * q`, so that the running product is squared at every step. For
the first child of an AND gate with `n` inputs the coefficient becomes `n * wideFactor n` instead of `n`.
-/
set_option linter.unusedSimpArgs false
set_option linter.unusedSectionVars false
set_option autoImplicit false
namespace Abe
variable {F : Type} [Field F] [DecidableEq F]
open LsssEx

/-- The factor by which the coefficient of the first of `n` children is wrong: 1, 1, 1, 2, 12, 576, … -/
def wideFactor : Nat → Nat
  | 0 => 1
  | 1 => 1
  | n + 2 => (n + 1) * wideFactor (n + 1) ^ 2

theorem wideFactor_pos : ∀ n, 0 < wideFactor n
  | 0 => by decide
  | 1 => by decide
  | n + 2 => by
    have := wideFactor_pos (n + 1)
    unfold wideFactor
    positivity

/-- It is at least `n - 1`. -/
theorem le_wideFactor (n : Nat) : n - 1 ≤ wideFactor n := by
  match n with
  | 0 => decide
  | 1 => decide
  | n + 2 =>
    have h := wideFactor_pos (n + 1)
    unfold wideFactor
    have h2 : 1 ≤ wideFactor (n + 1) ^ 2 := Nat.one_le_pow _ _ h
    calc n + 2 - 1 = (n + 1) * 1 := by omega
      _ ≤ _ := Nat.mul_le_mul_left _ h2

theorem coeffLoop_append (subs : List TNode) (index : Nat) : ∀ (a b : List Nat) (r : F),
    coeffLoop subs index (a ++ b) r = (coeffLoop subs index a r >>= fun r' => coeffLoop subs index b r')
  | [], b, r => rfl
  | i :: a, b, r => by
    simp only [List.cons_append, coeffLoop]
    split
    · split
      · rfl
      · exact coeffLoop_append subs index a b _
    · exact coeffLoop_append subs index a b _

theorem coeff_first (subs : List TNode) (hm : ∀ c ∈ subs, c.mark = true)
    (hz : ∀ k, 0 < k → k ≤ subs.length → (k : F) ≠ 0) : ∀ m, m + 1 ≤ subs.length →
    coeffLoop subs 0 (List.range (m + 1)) (1 : F) = .ok (((m + 1 : Nat) : F) * (wideFactor (m + 1) : F))
  | 0, _ => by simp [coeffLoop, List.range_succ, wideFactor]
  | m + 1, h => by
    rw [List.range_succ, coeffLoop_append, coeff_first subs hm hz m (by omega), Res.ok_bind]
    have hmk : markAt subs (m + 1) = true := by
      unfold markAt
      rw [List.getElem?_eq_getElem (by omega)]
      exact hm _ (List.getElem_mem _)
    have hd : (((0 + 1 : Nat) : F) - ((m + 1 + 1 : Nat) : F)) = -((m + 1 : Nat) : F) := by push_cast; ring
    have hne : ((m + 1 : Nat) : F) ≠ 0 := hz (m + 1) (by omega) (by omega)
    simp only [coeffLoop, hmk, Bool.true_and]
    rw [if_pos (by simp), hd, if_neg (neg_ne_zero.mpr hne)]
    congr 1
    show _ = _ * ((((m + 1) * wideFactor (m + 1) ^ 2 : Nat)) : F)
    have : ((m : F) + 1) ≠ 0 := by simpa using hne
    push_cast
    field_simp
    ring

/-- The polynomial with value `s` at zero that vanishes at `2`, …, `n`, as the list of its `n` coefficients. -/
theorem exists_vanishing (s : F) : ∀ n : Nat, (∀ k : Nat, 0 < k → k ≤ n + 1 → (k : F) ≠ 0) →
    ∃ rest : List F, rest.length = n ∧ (∀ k : Nat, 2 ≤ k → k ≤ n + 1 → ev (k : F) (s :: rest) = 0) ∧
      ((n + 1 : Nat) : F) * ev 1 (s :: rest) = s
  | 0, _ => ⟨[], rfl, fun k h1 h2 => by omega, by simp [ev]⟩
  | n + 1, h => by
    obtain ⟨rest, h1, h2, h3⟩ := exists_vanishing s n (fun k hk hle => h k hk (by omega))
    have hi : ((n + 2 : Nat) : F) ≠ 0 := h (n + 2) (by omega) (by omega)
    have e : ∀ x : F, ev x (s :: mulLin (((n + 2 : Nat) : F)⁻¹) s rest)
        = (1 - ((n + 2 : Nat) : F)⁻¹ * x) * ev x (s :: rest) := by
      intro x
      simp only [ev, ev_mulLin]; ring
    refine ⟨mulLin (((n + 2 : Nat) : F)⁻¹) s rest, by simp [length_mulLin, h1], ?_, ?_⟩
    · intro k hk hle
      rw [e]
      by_cases hkn : k = n + 2
      · subst hkn; rw [inv_mul_cancel₀ hi]; simp
      · rw [h2 k hk (by omega), mul_zero]
    · rw [e]
      have hi' : ((n : F) + 2) ≠ 0 := by simpa using hi
      have : ((n + 1 + 1 : Nat) : F) * ((1 - ((n + 2 : Nat) : F)⁻¹ * 1) * ev 1 (s :: rest)) =
          ((n + 1 : Nat) : F) * ev 1 (s :: rest) := by
        push_cast
        field_simp
        ring
      rw [this, h3]

theorem gsum_vanish (all : List TNode) (thr : Nat) (c : F) (coeffs : List F) :
    ∀ (ds : List TNode) i, (∀ k, i ≤ k → k < i + ds.length → evaluatePolynomial coeffs (k + 1) = 0) →
    gsum all thr c coeffs ds i = 0
  | [], _, _ => rfl
  | d :: ds, i, h => by
    have h0 := h i (le_refl _) (by simp)
    rw [gsum, gsum_vanish all thr c coeffs ds (i + 1) (fun k h1 h2 => h k (by omega) (by simp; omega)), h0]
    simp

/-- Recombining rows is the sum over the leaves of coefficient times share. -/
theorem recon_zsum (tape : Nat → F) (t : TNode) (ac : SMap Nat) (s : F)
    (hn : ((leaves t).map (uniqueLabel ac)).Nodup) :
    testSecretRecovery
      (SMap.addRows [] ((recRows (recFull t (1 : F) true)).map (toRow ac)))
      (SMap.addRows [] ((emit tape t s 0).map (toRow ac))) = zsum (recFull t (1 : F) true) (emit tape t s 0) := by
  have hn' : ((rleaves t).map (uniqueLabel ac)).Nodup :=
    ((rleaves_perm t).map _).nodup_iff.mpr hn
  have hperm := SMap.perm_addRows ((emit tape t s 0).map (toRow ac)) [] (by
    rw [fst_toRow, emit_fst]; simpa using hn')
  rw [testSecretRecovery_eq, (hperm.map _).sum_eq, List.append_nil,
    ← zsum_lookup ac _ (recFull t (1 : F) true) (emit tape t s 0)
      (by rw [recFull_fst, emit_fst]) ?_]
  have hkeys : (((recRows (recFull t (1 : F) true)).map (toRow ac)).map Prod.fst).Nodup := by
    rw [fst_toRow]
    refine List.Nodup.sublist ((recRows_keys_sublist _).map _) ?_
    rw [recFull_fst]; exact hn'
  intro p hp
  obtain ⟨lf, o⟩ := p
  cases o with
  | some c =>
    simp only [Option.map_some]
    exact SMap.find_addRows_mem _ _ _ _ hkeys
      (List.mem_map.mpr ⟨(lf, c), mem_recRows.mpr hp, rfl⟩)
  | none =>
    simp only [Option.map_none]
    rw [SMap.find_addRows_not_mem]
    · rfl
    · rw [fst_toRow]
      intro hmem
      obtain ⟨lf', h1, h2⟩ := List.mem_map.mp hmem
      obtain ⟨⟨lf'', c⟩, h3, h4⟩ := List.mem_map.mp h1
      simp only at h4; subst h4
      have h5 : (lf'', some c) ∈ recFull t (1 : F) true := mem_recRows.mp h3
      have hnd : ((recFull t (1 : F) true).map (fun p => uniqueLabel ac p.1)).Nodup := by
        have : (recFull t (1 : F) true).map (fun p => uniqueLabel ac p.1)
            = ((recFull t (1 : F) true).map Prod.fst).map (uniqueLabel ac) := by simp
        rw [this, recFull_fst]; exact hn'
      have := List.inj_on_of_nodup_map hnd h5 hp h2
      simp at this

/-- AND gates of every width: for a satisfied AND gate with `n ≥ 1` inputs whose subtrees have binary AND gates, and for
every secret, there are random coefficients for which the secret recovered is `wideFactor n` times the secret. -/
theorem C09_wide_and_factor (S : StdSort) (p : Policy) (fl : Flags) (thr : Nat) (subs : List TNode) (A : List Bytes)
    (s : F) (hroot : p.root = some (.gate fl .and thr subs)) (hao : AndOr (.gate fl .and thr subs))
    (hbin : ∀ c ∈ subs, BinAnd c) (hfresh : Fresh (.gate fl .and thr subs))
    (hidx : IdxOkT (if p.hasDup then p.dupCount else []) (.gate fl .and thr subs))
    (hlabels : ((leaves (.gate fl .and thr subs)).map (uniqueLabel (if p.hasDup then p.dupCount else []))).Nodup)
    (hsat : sat A (.gate fl .and thr subs) = true)
    (hz : ∀ k, 0 < k → k ≤ (TNode.gate fl .and thr subs).size → (k : F) ≠ 0) :
    ∃ (tape : Nat → F) (shares coeffs : LSSS F) (n : Nat) (p' : Policy),
      shareSecret false {} (some p) s tape = .ok (shares, n) ∧
      recoverCoefficients S false {} (some p) A = .ok (true, coeffs, p') ∧
      testSecretRecovery coeffs.results shares.results = (wideFactor subs.length : F) * s := by
  have e : effCount ({} : LSSS F) p = if p.hasDup then p.dupCount else [] := rfl
  obtain ⟨t', h2, h3⟩ := recover_sat S ({} : LSSS F) p _ A hroot hao hfresh (.inr hz)
    (by rw [e]; exact hidx) hsat
  have hne : subs ≠ [] := hao.2.1
  obtain ⟨m, hm⟩ : ∃ m, subs.length = m + 1 := Nat.exists_eq_succ_of_ne_zero (by simpa using hne)
  have hlen : subs.length ≤ (TNode.gate fl .and thr subs).size := by
    have := length_le_sizeL subs; simp only [TNode.size]; omega
  have hz' : ∀ k, 0 < k → k ≤ m + 1 → (k : F) ≠ 0 := fun k h1 h2 => hz k h1 (by omega)
  obtain ⟨rest, r1, r2, r3⟩ := exists_vanishing s m hz'
  refine ⟨fun i => (s :: rest).getD i 0, _, _, _, _,
    shareSecret_ok {} p _ s _ hroot hao.pos (by rw [e]; exact hidx), h3, ?_⟩
  have hr := recon_zsum (fun i => (s :: rest).getD i 0) t' (effCount ({} : LSSS F) p) s
    (by rw [h2.same.leaves, e]; exact hlabels)
  rw [h2.same.emit] at hr
  show testSecretRecovery (SMap.addRows [] _) (SMap.addRows [] _) = _
  rw [hr]
  rw [← h2.same.emit]
  -- the tree after the scan
  have hao' := h2.same.andOr.mpr hao
  have hmark : t'.mark = true := by rw [h2.mark, hsat]
  have hgood := h2.good
  have hsame := h2.same
  clear hr h3 h2
  cases t' with
  | leaf => simp [SameTree, resetFlags] at hsame
  | gate fl' ty' thr' subs' =>
    simp only [SameTree, resetFlags, resetFlagsL_eq, TNode.gate.injEq] at hsame
    obtain ⟨-, rfl, rfl, hss⟩ := hsame
    have hlen' : subs'.length = m + 1 := by
      have := congrArg List.length hss
      simpa [hm] using this
    have hall : ∀ c ∈ subs', c.mark = true := hgood.1 hmark rfl
    have hbin' : ∀ c ∈ subs', BinAnd c := by
      intro c hc
      have hmem : resetFlags c ∈ subs.map resetFlags := by rw [← hss]; exact List.mem_map_of_mem hc
      obtain ⟨d, hd, hdc⟩ := List.mem_map.mp hmem
      exact (SameTree.binAnd (t := d) (u := c) hdc).mp (hbin d hd)
    have hcoeffs : ((drawCoeffs (fun i => (s :: rest).getD i 0) 0 (m + 1)).set 0 s : List F) = s :: rest := by
      apply List.ext_getElem
      · simp [drawCoeffs, r1]
      · intro i h1 h2
        cases i with
        | zero => simp
        | succ i =>
          have : i < rest.length := by simpa using h2
          simp [drawCoeffs, this]
    simp only [recFull, emit, recoverThreshold, thresholdValue]
    rw [zsumL _ _ subs' _ 1 subs' (fun d hd hdm => zsum_eq _ A d ((AndOrL_iff _).1 hao'.2.2 d hd)
      (hbin' d hd) ((GoodL_iff _ _).1 hgood.2.2 d hd) hdm), hlen', hcoeffs]
    match subs', hlen' with
    | c0 :: cs, hl =>
      have hl' : cs.length = m := by simpa using hl
      have hc0 : (calculateCoefficient (c0 :: cs) 0 (m + 1) : Res F) =
          .ok (((m + 1 : Nat) : F) * (wideFactor (m + 1) : F)) := by
        unfold calculateCoefficient
        rw [if_neg (by simp [hl'])]
        exact coeff_first (c0 :: cs) hall (fun k h1 h2 => hz' k h1 (by simpa [hl'] using h2)) m (by simp [hl'])
      rw [gsum, gsum_vanish _ _ _ _ cs 1 (by
        intro k h1 h2
        rw [evaluatePolynomial_eq]
        exact r2 (k + 1) (by omega) (by omega)), hall c0 (by simp), if_pos rfl, hc0]
      rw [evaluatePolynomial_eq, hm]
      simp only [Res.val, zero_add, one_mul, Nat.cast_one]
      calc ((m + 1 : Nat) : F) * (wideFactor (m + 1) : F) * ev 1 (s :: rest)
          = (wideFactor (m + 1) : F) * (((m + 1 : Nat) : F) * ev 1 (s :: rest)) := by ring
        _ = _ := by rw [r3]

/-- The code violates C09 for every width from three on: an AND gate with `n ≥ 3` inputs recovers every non-zero secret
wrongly for some random coefficients, unless `wideFactor n` is one in the field. -/
theorem C09_wide_and_violated (S : StdSort) (p : Policy) (fl : Flags) (thr : Nat) (subs : List TNode) (A : List Bytes)
    (s : F) (hs : s ≠ 0) (hroot : p.root = some (.gate fl .and thr subs)) (hao : AndOr (.gate fl .and thr subs))
    (hbin : ∀ c ∈ subs, BinAnd c) (hfresh : Fresh (.gate fl .and thr subs))
    (hidx : IdxOkT (if p.hasDup then p.dupCount else []) (.gate fl .and thr subs))
    (hlabels : ((leaves (.gate fl .and thr subs)).map (uniqueLabel (if p.hasDup then p.dupCount else []))).Nodup)
    (hsat : sat A (.gate fl .and thr subs) = true)
    (hz : ∀ k, 0 < k → k ≤ (TNode.gate fl .and thr subs).size → (k : F) ≠ 0)
    (hw : (wideFactor subs.length : F) ≠ 1) :
    ∃ (tape : Nat → F) (shares coeffs : LSSS F) (n : Nat) (p' : Policy),
      shareSecret false {} (some p) s tape = .ok (shares, n) ∧
      recoverCoefficients S false {} (some p) A = .ok (true, coeffs, p') ∧
      testSecretRecovery coeffs.results shares.results ≠ s := by
  obtain ⟨tape, sh, co, n, p', h1, h2, h3⟩ :=
    C09_wide_and_factor S p fl thr subs A s hroot hao hbin hfresh hidx hlabels hsat hz
  refine ⟨tape, sh, co, n, p', h1, h2, ?_⟩
  rw [h3]
  intro h
  exact hw (mul_right_cancel₀ hs (by rw [h, one_mul]))

/-- Exactly the AND gates with at most two inputs are recovered correctly for all secrets and all random coefficients
(fields in which `wideFactor n` is not one for the width `n` at hand, for instance those of characteristic zero). -/
theorem C09_exact_width (S : StdSort) (p : Policy) (fl : Flags) (thr : Nat) (subs : List TNode) (A : List Bytes)
    (hroot : p.root = some (.gate fl .and thr subs)) (hao : AndOr (.gate fl .and thr subs))
    (hbin : ∀ c ∈ subs, BinAnd c) (hfresh : Fresh (.gate fl .and thr subs))
    (hidx : IdxOkT (if p.hasDup then p.dupCount else []) (.gate fl .and thr subs))
    (hlabels : ((leaves (.gate fl .and thr subs)).map (uniqueLabel (if p.hasDup then p.dupCount else []))).Nodup)
    (hsat : sat A (.gate fl .and thr subs) = true)
    (hz : ∀ k, 0 < k → k ≤ (TNode.gate fl .and thr subs).size → (k : F) ≠ 0)
    (hw : 3 ≤ subs.length → (wideFactor subs.length : F) ≠ 1) :
    (∀ (s : F) (tape : Nat → F), ∃ (shares coeffs : LSSS F) (n : Nat) (p' : Policy),
      shareSecret false {} (some p) s tape = .ok (shares, n) ∧
      recoverCoefficients S false {} (some p) A = .ok (true, coeffs, p') ∧
      testSecretRecovery coeffs.results shares.results = s) ↔ subs.length ≤ 2 := by
  constructor
  · intro h
    by_contra hlen
    obtain ⟨tape, sh, co, n, p', h1, h2, h3⟩ := C09_wide_and_violated S p fl thr subs A (1 : F) one_ne_zero hroot hao
      hbin hfresh hidx hlabels hsat hz (hw (by omega))
    obtain ⟨sh', co', n', p'', g1, g2, g3⟩ := h 1 tape
    rw [h1] at g1
    rw [h2] at g2
    simp only [Res.ok.injEq, Prod.mk.injEq, true_and] at g1 g2
    rw [← g1.1, ← g2.1] at g3
    exact h3 g3
  · intro hlen s tape
    exact C01_share_recover_inverse S p _ A s tape hroot hao ⟨fun _ => hlen, (BinAndL_iff _).2 hbin⟩ hfresh hidx hlabels hsat

/-- `a and b and c and d` as one gate, over the rationals. -/
example : let subs := [lf b!"a" 0, lf b!"b" 0, lf b!"c" 0, lf b!"d" 0]
    AndOr (.gate {} .and 0 subs) ∧ (∀ c ∈ subs, BinAnd c) ∧ Fresh (.gate {} .and 0 subs) ∧
    IdxOkT [] (.gate {} .and 0 subs) ∧ ((leaves (.gate {} .and 0 subs)).map (uniqueLabel [])).Nodup ∧
    sat [b!"a", b!"b", b!"c", b!"d"] (.gate {} .and 0 subs) = true ∧ (wideFactor subs.length : ℚ) ≠ 1 ∧
    (∀ k, 0 < k → k ≤ (TNode.gate {} .and 0 subs).size → (k : ℚ) ≠ 0) := by
  refine ⟨by simp [lf, AndOr, AndOrL], by simp [lf, BinAnd], by simp [lf, Fresh, FreshL, TNode.flags], idxOk_nil _,
    by decide, by decide, by norm_num [wideFactor], fun k hk _ => Nat.cast_ne_zero.mpr (by omega)⟩

end Abe
