import Verif.Proof.Compare
import Verif.Proof.Scanner
import Verif.Spec.Grammar
/-! # The driver functions on what the scanner delivers: defined, and only the counters change -/
set_option linter.unusedSimpArgs false
set_option linter.unusedSectionVars false
set_option autoImplicit false
namespace Abe

theorem split_ne_nil : ∀ (s cur : Bytes), (cur ≠ [] ∨ ∃ x ∈ s, x ≠ 58) → splitAux 58 cur s ≠ []
  | [], cur, h => by
    rcases h with h | ⟨x, hx, _⟩
    · simp [splitAux, h]
    · cases hx
  | c :: cs, cur, h => by
    simp only [splitAux]
    by_cases hc : c = 58
    · rw [if_pos hc]
      split
      · rename_i h0
        apply split_ne_nil
        right
        rcases h with h | ⟨x, hx, h⟩
        · exact absurd h0 h
        · rcases List.mem_cons.mp hx with rfl | hx
          · exact absurd hc h
          · exact ⟨x, hx, h⟩
      · simp
    · rw [if_neg hc]
      exact split_ne_nil cs _ (Or.inl (by simp))

theorem checkAttribute_ok {c : Bytes} (h : ∃ x ∈ c, x ≠ 58) : ∃ p a, checkAttribute c = .ok (p, a) := by
  unfold checkAttribute
  split
  · have := split_ne_nil c [] (Or.inr h)
    unfold split
    cases hs : splitAux 58 [] c with
    | nil => exact absurd hs this
    | cons p r => exact ⟨_, _, rfl⟩
  · exact ⟨_, _, rfl⟩

theorem leafNode_ok (d : Drv) {c : Bytes} (h : ∃ x ∈ c, x ≠ 58) : ∃ t d', leafNode d c = .ok (t, d') := by
  obtain ⟨p, a, hc⟩ := checkAttribute_ok h
  obtain ⟨i, d', h⟩ := leafNode_of_check (d := d) hc
  exact ⟨_, _, h⟩

theorem start_ne58 : ∀ b : UInt8, isStart b = true → b ≠ 58 := forall_uint8 (by decide +kernel)

theorem name_ne58 {s : Bytes} (h : isName s = true) : ∃ x ∈ s, x ≠ 58 := by
  cases s with
  | nil => cases h
  | cons b w =>
    simp only [isName, Bool.and_eq_true] at h
    exact ⟨b, by simp, start_ne58 b h.1.1⟩

theorem marker_ok (d : Drv) (base : Bytes) (i : Nat) (b : Bool) (w : Nat) :
    ∃ t d', leafNode d (bitMarker false base i b w) = .ok (t, d') := by
  apply leafNode_ok
  refine ⟨95, ?_, by decide⟩
  simp [bitMarker]

theorem bitLoop_ok (gt : Bool) (base : Bytes) (w v : Nat) : ∀ (n i : Nat) (p : TNode) (d : Drv), i + n ≤ 32 →
    ∃ t d', bitLoop false gt base w v n i p d = .ok (t, d')
  | 0, i, p, d, _ => ⟨p, d, rfl⟩
  | n + 1, i, p, d, h => by
    obtain ⟨t, d1, h1⟩ := marker_ok d base i gt w
    simp only [bitLoop, if_neg (show ¬ 32 ≤ i by omega), h1, Res.ok_bind]
    exact bitLoop_ok gt base w v n (i + 1) _ _ (by omega)

theorem cmpPolicy_ok (d : Drv) (base : Bytes) {w : Nat} (hw : Width w) (v : UInt32) (gt : Bool)
    (h : v ≠ if gt then 0xffffffff else 0) : ∃ t d', cmpPolicy d ⟨v, w⟩ gt base = .ok (t, d') := by
  have hw0 : w ≠ 0 := by rcases hw with h | h | h | h <;> omega
  have hw32 := width_le hw
  have h32 := v.toNat_lt
  have hun : cmpPolicy d ⟨v, w⟩ gt base = bitMarkerList d false gt base w v := by
    simp [cmpPolicy, hw0]
  rw [hun]
  unfold bitMarkerList
  cases hj : runEnd gt v.toNat 32 0 with
  | none =>
    exfalso
    have hb := fun k (hk : k < 32) => runEnd_none _ _ _ _ hj k (by omega) (by omega)
    apply h
    apply UInt32.toNat_inj.mp
    cases gt with
    | true => have := mod_of_low_true hb; simp; omega
    | false => have := mod_of_low_false hb; simp; omega
  | some j =>
    have hs := runEnd_spec _ _ _ _ _ hj
    obtain ⟨t, d1, h1⟩ := marker_ok d base j gt w
    simp only [h1, Res.ok_bind]
    by_cases hjw : j + 1 ≤ w
    · exact bitLoop_ok gt base w _ _ _ _ _ (by omega)
    · rw [show w - (j + 1) = 0 by omega]
      exact ⟨_, _, rfl⟩

theorem eqLoop_ok (base : Bytes) (w v : Nat) : ∀ (i : Nat) (p : TNode) (d : Drv),
    ∃ t d', eqLoop false base w v i p d = .ok (t, d')
  | 0, p, d => ⟨p, d, rfl⟩
  | i + 1, p, d => by
    obtain ⟨t, d1, h1⟩ := marker_ok d base i (v.testBit i) w
    simp only [eqLoop, h1, Res.ok_bind]
    exact eqLoop_ok base w v i _ _

theorem eqPolicy_ok (d : Drv) (base : Bytes) {w : Nat} (hw : w ≠ 0) (v : UInt32) :
    ∃ t d', eqPolicy d base ⟨v, w⟩ = .ok (t, d') := by
  unfold eqPolicy
  simp only [hw, if_false, ne_eq, not_false_eq_true, if_true, decide_false, Bool.false_eq_true]
  obtain ⟨t, d1, h1⟩ := marker_ok d base (w - 1) (v.toNat.testBit (w - 1)) w
  simp only [h1, Res.ok_bind]
  exact eqLoop_ok base w _ _ _ _

theorem NumOk.width' {n : UInteger} (h : NumOk n) : Width n.bits := h.1

/-- Compiling a condition on scanned numbers always returns, whatever the name. -/
theorem compile_ok (d : Drv) (base : Bytes) (c : NumCond) (hn : ∀ n ∈ c.nums, NumOk n) :
    ∃ t d', c.compile d base = .ok (t, d') := by
  have hne : ∀ n : UInteger, NumOk n → n.val ≠ 0 ∧ n.val ≠ 0xffffffff ∧ n.val + 1 ≠ 0 ∧ n.val - 1 ≠ 0xffffffff := by
    intro n h
    have h1 := h.2.2.1
    have h2 := h.2.2.2
    refine ⟨fun e => ?_, fun e => ?_, fun e => ?_, fun e => ?_⟩
    · rw [e] at h1; simp at h1
    · rw [e] at h2; simp at h2
    · have := congrArg UInt32.toNat e
      rw [add1_toNat h2] at this; simp at this
    · have := congrArg UInt32.toNat e
      rw [sub1_toNat h1] at this; simp at this; omega
  have hlt : ∀ d n, NumOk n → ∃ t d', ltPolicy d base n = .ok (t, d') := fun d n h =>
    cmpPolicy_ok d base h.width' n.val false (by simpa using (hne n h).1)
  have hgt : ∀ d n, NumOk n → ∃ t d', gtPolicy d base n = .ok (t, d') := fun d n h =>
    cmpPolicy_ok d base h.width' n.val true (by simpa using (hne n h).2.1)
  have hle : ∀ d n, NumOk n → ∃ t d', lePolicy d base n = .ok (t, d') := fun d n h =>
    cmpPolicy_ok d base (w := n.bits) h.width' (n.val + 1) false (by simpa using (hne n h).2.2.1)
  have hge : ∀ d n, NumOk n → ∃ t d', gePolicy d base n = .ok (t, d') := fun d n h =>
    cmpPolicy_ok d base (w := n.bits) h.width' (n.val - 1) true (by simpa using (hne n h).2.2.2)
  cases c with
  | lt n => exact hlt d n (hn n (by simp [NumCond.nums]))
  | gt n => exact hgt d n (hn n (by simp [NumCond.nums]))
  | le n => exact hle d n (hn n (by simp [NumCond.nums]))
  | ge n => exact hge d n (hn n (by simp [NumCond.nums]))
  | eq n =>
    refine eqPolicy_ok d base ?_ n.val
    have := (hn n (by simp [NumCond.nums])).1
    omega
  | inOpen lo hi =>
    obtain ⟨t1, d1, h1⟩ := hgt d lo (hn lo (by simp [NumCond.nums]))
    obtain ⟨t2, d2, h2⟩ := hlt d1 hi (hn hi (by simp [NumCond.nums]))
    exact ⟨.gate {} .and 2 [t1, t2], d2, by simp only [NumCond.compile, rangePolicy, h1, h2, Res.ok_bind]⟩
  | inClosed lo hi =>
    obtain ⟨t1, d1, h1⟩ := hge d lo (hn lo (by simp [NumCond.nums]))
    obtain ⟨t2, d2, h2⟩ := hle d1 hi (hn hi (by simp [NumCond.nums]))
    exact ⟨.gate {} .and 2 [t1, t2], d2, by simp only [NumCond.compile, rangeInclPolicy, h1, h2, Res.ok_bind]⟩

/-! ### Shape of the trees -/

/-- All texts are bit markers of `base`, of any supported width. -/
def AnyMarkers (base : Bytes) (cs : List Bytes) : Prop :=
  ∀ c ∈ cs, ∃ w i b, Width w ∧ i < 32 ∧ c = base ++ msuf w i b

theorem Markers.any {base : Bytes} {w : Nat} {cs : List Bytes} (hw : Width w) (h : Markers base w cs) :
    AnyMarkers base cs := fun c hc => by
  obtain ⟨i, b, hi, e⟩ := h c hc
  exact ⟨w, i, b, hw, hi, e⟩

theorem compile_built_any {d d' : Drv} {base : Bytes} {c : NumCond} {t : TNode}
    (hn : ∀ n ∈ c.nums, Width n.bits) (h : c.compile d base = .ok (t, d')) :
    ∃ cs, Built d t d' cs ∧ AnyMarkers base cs := by
  have hw0 : ∀ {w}, Width w → w ≠ 0 := fun hw => by rcases hw with h | h | h | h <;> omega
  have hcmp : ∀ {d d' : Drv} {t : TNode} {n : UInteger} {gt : Bool}, Width n.bits →
      cmpPolicy d n gt base = .ok (t, d') → ∃ cs, Built d t d' cs ∧ AnyMarkers base cs := by
    intro d d' t n gt hw h
    obtain ⟨cs, h1, h2⟩ := cmpPolicy_built (hw0 hw) h
    exact ⟨cs, h1, h2.any hw⟩
  have hr : ∀ {d d1 d2 : Drv} {l r : TNode}, (∃ cs, Built d l d1 cs ∧ AnyMarkers base cs) →
      (∃ cs, Built d1 r d2 cs ∧ AnyMarkers base cs) →
      ∃ cs, Built d (.gate {} .and 2 [l, r]) d2 cs ∧ AnyMarkers base cs := by
    intro d d1 d2 l r ⟨c1, h1, m1⟩ ⟨c2, h2, m2⟩
    refine ⟨c1 ++ c2, Built.gate h1 h2 (Or.inr rfl), fun c hc => ?_⟩
    rcases List.mem_append.mp hc with h | h
    · exact m1 c h
    · exact m2 c h
  cases c with
  | lt n => exact hcmp (hn n (by simp [NumCond.nums])) h
  | gt n => exact hcmp (hn n (by simp [NumCond.nums])) h
  | le n => exact hcmp (n := n.add1) (hn n (by simp [NumCond.nums])) h
  | ge n => exact hcmp (n := n.sub1) (hn n (by simp [NumCond.nums])) h
  | eq n =>
    have hw := hn n (by simp [NumCond.nums])
    obtain ⟨cs, h1, h2⟩ := eqPolicy_built hw h
    exact ⟨cs, h1, h2.any hw⟩
  | inOpen lo hi =>
    simp only [NumCond.compile, rangePolicy] at h
    obtain ⟨l, hl, h⟩ := (Res.bind_eq_ok _ _ _).mp h
    obtain ⟨r, hr', h⟩ := (Res.bind_eq_ok _ _ _).mp h
    cases h
    exact hr (hcmp (hn lo (by simp [NumCond.nums])) hl) (hcmp (hn hi (by simp [NumCond.nums])) hr')
  | inClosed lo hi =>
    simp only [NumCond.compile, rangeInclPolicy] at h
    obtain ⟨l, hl, h⟩ := (Res.bind_eq_ok _ _ _).mp h
    obtain ⟨r, hr', h⟩ := (Res.bind_eq_ok _ _ _).mp h
    cases h
    exact hr (hcmp (n := lo.sub1) (hn lo (by simp [NumCond.nums])) hl)
      (hcmp (n := hi.add1) (hn hi (by simp [NumCond.nums])) hr')

/-! ### What changes in the driver -/

/-- The results and the input of the driver are untouched. -/
def SameOut (d d' : Drv) : Prop :=
  d'.policy = d.policy ∧ d'.attrs = d.attrs ∧ d'.isPolicy = d.isPolicy ∧ d'.input = d.input

theorem SameOut.refl (d : Drv) : SameOut d d := ⟨rfl, rfl, rfl, rfl⟩
theorem SameOut.trans {a b c : Drv} (h : SameOut a b) (h' : SameOut b c) : SameOut a c :=
  ⟨h'.1.trans h.1, h'.2.1.trans h.2.1, h'.2.2.1.trans h.2.2.1, h'.2.2.2.trans h.2.2.2⟩

theorem leafNode_same {d d' : Drv} {c : Bytes} {t : TNode} (h : leafNode d c = .ok (t, d')) : SameOut d d' := by
  unfold leafNode at h
  obtain ⟨pa, hpa, h⟩ := (Res.bind_eq_ok _ _ _).mp h
  cases h
  cases SMap.find c d.attrCount <;> simp only <;> split <;> exact ⟨rfl, rfl, rfl, rfl⟩

theorem built_same {d d' : Drv} {t : TNode} {cs : List Bytes} (h : Built d t d' cs) : SameOut d d' := by
  induction h with
  | leaf h => exact leafNode_same h
  | gate _ _ _ i1 i2 => exact i1.trans i2
  | gateR _ _ _ i1 i2 => exact i1.trans i2

theorem leafAttr_spec {d d' : Drv} {c : Bytes} {l : Option (List Bytes)} (h : leafAttr d c = .ok (l, d')) :
    SameOut d d' ∧ (l = none → d.attrCount ≠ []) := by
  unfold leafAttr parseAttribute at h
  obtain ⟨r, hr, h⟩ := (Res.bind_eq_ok _ _ _).mp h
  obtain ⟨pa, hpa, hr⟩ := (Res.bind_eq_ok _ _ _).mp hr
  cases hf : SMap.find c d.attrCount with
  | none =>
    rw [hf] at hr
    cases hr
    cases h
    refine ⟨?_, by simp⟩
    simp only
    split <;> exact ⟨rfl, rfl, rfl, rfl⟩
  | some n =>
    rw [hf] at hr
    cases hr
    cases h
    exact ⟨SameOut.refl _, fun _ e => by rw [e] at hf; cases hf⟩

theorem leafAttr_ok (d : Drv) {c : Bytes} (h : ∃ x ∈ c, x ≠ 58) : ∃ l d', leafAttr d c = .ok (l, d') := by
  obtain ⟨p, a, hc⟩ := checkAttribute_ok h
  unfold leafAttr parseAttribute
  simp only [hc, Res.ok_bind]
  cases SMap.find c d.attrCount <;> exact ⟨_, _, rfl⟩

theorem attrNum_same (d : Drv) (c : Bytes) (n : UInteger) : SameOut d (attrNum d c n).2 := by
  unfold attrNum
  cases SMap.find c d.attrCount <;> simp only <;> split <;> exact ⟨rfl, rfl, rfl, rfl⟩

theorem setDateAttr_same (mk : Mktime) (d : Drv) (p mo : Bytes) (m dd y : UInteger) :
    SameOut d (setDateAttr mk d p mo m dd y).2 := by
  unfold setDateAttr
  simp only
  split <;> exact ⟨rfl, rfl, rfl, rfl⟩

end Abe
