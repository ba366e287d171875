import Verif.Spec.Date
/-! # Day numbers are monotone -/
set_option linter.unusedSimpArgs false
set_option linter.unusedSectionVars false
set_option autoImplicit false
namespace Abe

theorem daysBefore_mono (y : Nat) {m : Nat} : ∀ {n : Nat}, 1 ≤ m → m < n → daysBefore y m + monthDays y m ≤ daysBefore y n
  | 0, _, h => by omega
  | n + 1, h1, h => by
    have hn : n ≠ 0 := by omega
    simp only [daysBefore, if_neg hn]
    by_cases e : m = n
    · subst e; exact Nat.le_refl _
    · have := daysBefore_mono y (m := m) (n := n) h1 (by omega); omega

theorem yearsDays_mono {m : Nat} : ∀ {n : Nat}, m < n → yearsDays m + daysBefore (1970 + m) 13 ≤ yearsDays n
  | 0, h => by omega
  | n + 1, h => by
    simp only [yearsDays]
    by_cases e : m = n
    · subst e; exact Nat.le_refl _
    · have := yearsDays_mono (m := m) (n := n) (by omega); omega

theorem Date.number_lt {a b : Date} (ha : a.ok) (hb : b.ok) (h : a.lt b) : a.number < b.number := by
  obtain ⟨a1, a2, a3, a4, a5⟩ := ha
  obtain ⟨b1, b2, b3, b4, b5⟩ := hb
  have hm : daysBefore a.year a.month + monthDays a.year a.month ≤ daysBefore a.year 13 :=
    daysBefore_mono a.year a2 (by omega)
  unfold Date.number
  rcases h with h | ⟨h1, h | ⟨h2, h⟩⟩
  · have := yearsDays_mono (m := a.year - 1970) (n := b.year - 1970) (by omega)
    rw [show 1970 + (a.year - 1970) = a.year by omega] at this
    omega
  · have := daysBefore_mono a.year a2 h
    rw [← h1]; omega
  · rw [← h1, ← h2]; omega

theorem Date.number_lt_iff {a b : Date} (ha : a.ok) (hb : b.ok) : a.number < b.number ↔ a.lt b := by
  refine ⟨fun h => ?_, Date.number_lt ha hb⟩
  have tri : a.lt b ∨ b.lt a ∨ a = b := by
    obtain ⟨y, m, d⟩ := a; obtain ⟨y', m', d'⟩ := b
    simp only [Date.lt, Date.mk.injEq]; omega
  rcases tri with h1 | h1 | rfl
  · exact h1
  · have := Date.number_lt hb ha h1; omega
  · omega

theorem Date.number_inj {a b : Date} (ha : a.ok) (hb : b.ok) : a.number = b.number ↔ a = b := by
  refine ⟨fun h => ?_, fun h => by rw [h]⟩
  have h1 : ¬ a.lt b := fun hl => by have := Date.number_lt ha hb hl; omega
  have h2 : ¬ b.lt a := fun hl => by have := Date.number_lt hb ha hl; omega
  obtain ⟨y, m, d⟩ := a; obtain ⟨y', m', d'⟩ := b
  simp only [Date.lt] at h1 h2
  simp only [Date.mk.injEq]; omega

theorem CmpOp.compare_iff (op : CmpOp) {a b : Date} (ha : a.ok) (hb : b.ok) : op.compare a b ↔
    (match op with
      | .lt => a.number < b.number
      | .gt => b.number < a.number
      | .le => a.number ≤ b.number
      | .ge => b.number ≤ a.number
      | .eq => a.number = b.number) := by
  cases op <;> simp only [CmpOp.compare]
  · exact (Date.number_lt_iff ha hb).symm
  · exact (Date.number_lt_iff hb ha).symm
  · rw [← Date.number_lt_iff hb ha]; omega
  · rw [← Date.number_lt_iff ha hb]; omega
  · exact (Date.number_inj ha hb).symm

theorem getMonth_number (m : Bytes) : (getMonth m).val = UInt32.ofNat (monthNumber m) := by
  unfold getMonth monthNumber
  simp only [apply_ite UInt32.ofNat]
  rfl

theorem ite_le {p : Prop} [Decidable p] {a b n : Nat} (h1 : a ≤ n) (h2 : b ≤ n) : (if p then a else b) ≤ n := by
  split <;> assumption

theorem monthNumber_le (m : Bytes) : monthNumber m ≤ 12 := by
  unfold monthNumber
  repeat' (apply ite_le)
  all_goals decide

theorem toInt32_small {n : UInt32} (h : n.toNat < 2 ^ 31) : n.toInt32.toInt = n.toNat := by
  show n.toBitVec.toInt = _
  rw [BitVec.toInt_eq_toNat_of_lt (by show 2 * n.toNat < _; omega)]
  rfl

/-- The structure handed to `mktime` for an existing date. -/
theorem mkTm_dateOf {m : Bytes} {d y : NumSyn} (h : (dateOf m d y).ok) (hy : (dateOf m d y).year < 2 ^ 31) :
    mkTm (getMonth m) d.val y.val =
      { year := ((dateOf m d y).year : Int) - 1900, mon := ((dateOf m d y).month : Int) - 1, mday := (dateOf m d y).day } := by
  obtain ⟨h1, h2, h3, h4, h5⟩ := h
  simp only [dateOf] at h1 h2 h3 h4 h5 hy ⊢
  have hd : d.val.val.toNat ≤ 31 := by
    have : monthDays y.val.val.toNat (monthNumber m) ≤ 31 := by unfold monthDays; repeat' (first | omega | split)
    omega
  unfold mkTm
  rw [getMonth_number]
  have e1 : (y.val.val - 1900).toNat = y.val.val.toNat - 1900 := by
    rw [UInt32.toNat_sub_of_le _ _ (by rw [UInt32.le_iff_toNat_le]; simp; omega)]; rfl
  have e2 : (UInt32.ofNat (monthNumber m) - 1).toNat = monthNumber m - 1 := by
    have hm : (UInt32.ofNat (monthNumber m)).toNat = monthNumber m := by
      rw [UInt32.toNat_ofNat']; omega
    rw [UInt32.toNat_sub_of_le _ _ (by rw [UInt32.le_iff_toNat_le, hm]; simpa using h2), hm]; rfl
  rw [toInt32_small (n := y.val.val - 1900) (by rw [e1]; omega), toInt32_small (n := UInt32.ofNat (monthNumber m) - 1) (by rw [e2]; omega),
    toInt32_small (n := d.val.val) (by omega), e1, e2]
  have i1 : ((y.val.val.toNat - 1900 : Nat) : Int) = (y.val.val.toNat : Int) - 1900 := by omega
  have i2 : ((monthNumber m - 1 : Nat) : Int) = (monthNumber m : Int) - 1 := by omega
  rw [i1, i2]

/-- Day number of a time in range. -/
theorem toDays_toNat {s : Int} (h0 : 0 ≤ s) (h1 : s < 86400 * (2 ^ 32 - 1)) : ((toDays s).toNat : Int) = s / 86400 := by
  unfold toDays
  have h2 : s % 2 ^ 64 = s := Int.emod_eq_of_lt h0 (by omega)
  rw [h2, UInt32.toNat_ofNat', Nat.mod_eq_of_lt (by omega)]
  omega

theorem days_of {off : Int} {t : Date} (h : t.inRange off) :
    ((toDays (86400 * (t.number : Int) - off)).toNat : Int) = t.number + (-off) / 86400 := by
  obtain ⟨_, h1, h2, _⟩ := h
  rw [toDays_toNat (by omega) h2]
  omega

theorem days_range {off : Int} {t : Date} (h : t.inRange off) :
    (toDays (86400 * (t.number : Int) - off)).toNat ≠ 0 ∧ (toDays (86400 * (t.number : Int) - off)).toNat ≠ 2 ^ 32 - 1 := by
  have h1 := h.2.1
  have h2 := h.2.2.1
  have h3 := toDays_toNat (s := 86400 * (t.number : Int) - off) (by omega) h2
  omega

/-- The day number that the driver computes for an existing date. -/
theorem validateDate_eq {mk : Mktime} {off : Int} (hz : FixedZone mk off) {m : Bytes} {d y : NumSyn}
    (h : (dateOf m d y).inRange off) :
    validateDate mk (getMonth m) d.val y.val = toDays (86400 * ((dateOf m d y).number : Int) - off) := by
  unfold validateDate
  rw [mkTm_dateOf h.1 h.2.2.2, hz.first _ h.1]

theorem rangeFirst_eq {mk : Mktime} {off : Int} (hz : FixedZone mk off) {m : Bytes} {d y : NumSyn}
    (h : (dateOf m d y).inRange off) :
    toDays (mk (mkTm (getMonth m) d.val y.val)).1 = toDays (86400 * ((dateOf m d y).number : Int) - off) :=
  validateDate_eq hz h

theorem rangeSecond_eq {mk : Mktime} {off : Int} (hz : FixedZone mk off) {m : Bytes} {d1 d2 y : NumSyn}
    (h1 : (dateOf m d1 y).inRange off) (h2 : (dateOf m d2 y).inRange off) :
    toDays (mk { (mk (mkTm (getMonth m) d1.val y.val)).2 with mday := d2.val.val.toInt32.toInt }).1 =
      toDays (86400 * ((dateOf m d2 y).number : Int) - off) := by
  have hd : d2.val.val.toNat ≤ 31 := by
    have h5 := h2.1.2.2.2.2
    have : monthDays (dateOf m d2 y).year (dateOf m d2 y).month ≤ 31 := by unfold monthDays; repeat' (first | omega | split)
    simp only [dateOf] at h5 this
    omega
  rw [toInt32_small (by omega), mkTm_dateOf h1.1 h1.2.2.2]
  exact congrArg toDays (hz.again _ (dateOf m d2 y) h1.1 h2.1 rfl rfl)

theorem days_lt_iff {off : Int} {a b : Date} (ha : a.inRange off) (hb : b.inRange off) :
    (toDays (86400 * (a.number : Int) - off)).toNat < (toDays (86400 * (b.number : Int) - off)).toNat ↔ a.number < b.number := by
  have h1 := days_of ha; have h2 := days_of hb; omega

theorem days_eq_iff {off : Int} {a b : Date} (ha : a.inRange off) (hb : b.inRange off) :
    (toDays (86400 * (a.number : Int) - off)).toNat = (toDays (86400 * (b.number : Int) - off)).toNat ↔ a.number = b.number := by
  have h1 := days_of ha; have h2 := days_of hb; omega

/-- The comparison of day numbers is the comparison of dates. -/
theorem cond_holds_iff (op : CmpOp) {off : Int} {a b : Date} (ha : a.inRange off) (hb : b.inRange off) :
    (op.cond ⟨toDays (86400 * (b.number : Int) - off), 32⟩).holds (toDays (86400 * (a.number : Int) - off)).toNat ↔
      op.compare a b := by
  rw [CmpOp.compare_iff op ha.1 hb.1]
  have h1 := days_lt_iff ha hb; have h2 := days_lt_iff hb ha; have h3 := days_eq_iff ha hb
  cases op <;> simp only [CmpOp.cond, NumCond.holds] <;> omega

/-- What the list says about the attribute of a date. -/
theorem itemsNum_date {mk : Mktime} {is : List Item} {p m : Bytes} {d y : NumSyn} (hk : ItemsOk mk is)
    (h : Item.date p m d y ∈ is) :
    itemsNum mk is (p ++ b!":time") = some (validateDate mk (getMonth m) d.val y.val, 32) := by
  have hn := hk.1
  clear hk
  unfold itemsNum
  induction is with
  | nil => cases h
  | cons i is ih =>
    simp only [List.filterMap_cons] at hn
    simp only [List.findSome?_cons]
    rcases List.mem_cons.1 h with h | h
    · subst h
      simp [Item.value]
    · cases hv : i.value mk with
      | none =>
        simp only [hv, Option.map_none] at hn ⊢
        exact ih h hn
      | some bv =>
        obtain ⟨b, v⟩ := bv
        simp only [hv, Option.map_some, List.nodup_cons] at hn ⊢
        have hb : b ≠ p ++ b!":time" := by
          rintro rfl
          refine hn.1 (List.mem_filterMap.2 ⟨_, h, ?_⟩)
          simp [Item.value]
        rw [if_neg hb]
        exact ih h hn.2

theorem append_time_inj {p q : Bytes} (h : p ++ b!":time" = q ++ b!":time") : p = q := List.append_cancel_right h

/-- A value of a date attribute comes from a date, when no number is given to the attribute directly. -/
theorem itemsNum_some {mk : Mktime} {is : List Item} {b : Bytes} {v : UInt32 × Nat} (h : itemsNum mk is b = some v) :
    ∃ i ∈ is, i.value mk = some (b, v) := by
  unfold itemsNum at h
  obtain ⟨i, hi, hv⟩ := List.exists_of_findSome?_eq_some h
  refine ⟨i, hi, ?_⟩
  cases hiv : i.value mk with
  | none => rw [hiv] at hv; cases hv
  | some x =>
    obtain ⟨b', v'⟩ := x
    rw [hiv] at hv
    simp only at hv
    split at hv
    · next he => cases hv; rw [he]
    · cases hv

end Abe
