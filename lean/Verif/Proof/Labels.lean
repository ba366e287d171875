import Verif.Proof.Recon
/-! Distinct share labels. -/
set_option linter.unusedSimpArgs false
set_option autoImplicit false
namespace Abe

/-- Value of a decimal string. -/
def digitsVal (l : Bytes) : Nat := l.foldl (fun a c => a * 10 + (c.toNat - 48)) 0

theorem digitsVal_append (l : Bytes) (c : UInt8) : digitsVal (l ++ [c]) = digitsVal l * 10 + (c.toNat - 48) := by
  simp [digitsVal]

theorem digit_toNat (k : Nat) (h : k < 10) : (UInt8.ofNat (48 + k)).toNat = 48 + k := by
  rw [UInt8.toNat_ofNat']; omega

theorem digitsVal_decAux : ∀ fuel n, n < fuel → digitsVal (decAux fuel n) = n
  | 0, n, h => by omega
  | fuel + 1, n, h => by
    simp only [decAux]
    split
    · rename_i hn
      have := digit_toNat n hn
      simp [digitsVal] at this ⊢
      omega
    · rw [digitsVal_append, digitsVal_decAux fuel (n / 10) (by omega), digit_toNat _ (by omega)]
      omega

theorem digitsVal_natDec (n : Nat) : digitsVal (natDec n) = n := digitsVal_decAux _ _ (by omega)

theorem natDec_inj {a b : Nat} (h : natDec a = natDec b) : a = b := by
  rw [← digitsVal_natDec a, h, digitsVal_natDec]

/-- Splitting at the first occurrence of a byte. -/
theorem split_unique {c : UInt8} : ∀ {a b x y : Bytes}, c ∉ a → c ∉ b →
    a ++ c :: x = b ++ c :: y → a = b ∧ x = y
  | [], [], x, y, _, _, h => by simpa using h
  | [], b :: bs, x, y, _, hb, h => by
    simp only [List.nil_append, List.cons_append, List.cons.injEq] at h
    exact absurd (by simp [h.1]) hb
  | a :: as, [], x, y, ha, _, h => by
    simp only [List.nil_append, List.cons_append, List.cons.injEq] at h
    exact absurd (by simp [h.1]) ha
  | a :: as, b :: bs, x, y, ha, hb, h => by
    simp only [List.cons_append, List.cons.injEq] at h
    obtain ⟨h1, h2⟩ := split_unique (fun hm => ha (by simp [hm])) (fun hm => hb (by simp [hm])) h.2
    exact ⟨by rw [h.1, h1], h2⟩

theorem decAux_bytes : ∀ fuel n, ∀ x ∈ decAux fuel n, 48 ≤ x.toNat ∧ x.toNat ≤ 57
  | 0, n => by simp [decAux]
  | fuel + 1, n => by
    intro x hx
    simp only [decAux] at hx
    split at hx
    · rename_i hn
      simp only [List.mem_singleton] at hx
      rw [hx, digit_toNat n hn]; omega
    · rcases List.mem_append.mp hx with hx | hx
      · exact decAux_bytes fuel _ x hx
      · simp only [List.mem_singleton] at hx
        rw [hx, digit_toNat (n % 10) (by omega)]; omega

theorem natDec_digits (n : Nat) : ∀ x ∈ natDec n, 48 ≤ x.toNat ∧ x.toNat ≤ 57 := decAux_bytes _ _

theorem natDec_no37 (n : Nat) : (37 : UInt8) ∉ natDec n := by
  intro h
  have := (natDec_digits n _ h).1
  have e : (37 : UInt8).toNat = 37 := rfl
  omega

/-- The label of the `i`-th occurrence of a repeated attribute determines both. -/
theorem numbered_inj {a b : Bytes} {i j : Nat} (h : a ++ b!"%" ++ natDec i = b ++ b!"%" ++ natDec j) : a = b ∧ i = j := by
  have e37 : (b!"%" : Bytes) = [37] := by decide
  rw [e37] at h
  have h' := congrArg List.reverse h
  simp only [List.reverse_append, List.reverse_cons, List.reverse_nil, List.nil_append, List.append_assoc, List.singleton_append] at h'
  obtain ⟨h1, h2⟩ := split_unique (by simpa using natDec_no37 i) (by simpa using natDec_no37 j) h'
  exact ⟨List.reverse_injective h2, natDec_inj (List.reverse_injective h1)⟩

theorem uniqueLabel_ne {ac : SMap Nat} {a b : Leaf} (ha : ∀ i, a.label ≠ b.label ++ b!"%" ++ natDec i)
    (hb : ∀ i, b.label ≠ a.label ++ b!"%" ++ natDec i)
    (h : a.label = b.label → (SMap.find a.label ac).isSome ∧ a.idx.getD 0 ≠ b.idx.getD 0) :
    uniqueLabel ac a ≠ uniqueLabel ac b := by
  intro he
  unfold uniqueLabel at he
  split at he <;> split at he
  · obtain ⟨hl, hn⟩ := numbered_inj he
    exact (h hl).2 hn
  · exact hb _ he.symm
  · exact ha _ he
  · rename_i h1 h2
    have := (h he).1
    simp [h1] at this

/-- No attribute in the list is another one followed by `%` and a number. -/
def NoNumbered (ls : List Leaf) : Prop := ∀ a ∈ ls, ∀ b ∈ ls, ∀ i, b.label ≠ a.label ++ b!"%" ++ natDec i

theorem uniqueLabel_nodup {ac : SMap Nat} {ls : List Leaf} (h37 : NoNumbered ls)
    (hn : Numbered ac ls) : (ls.map (uniqueLabel ac)).Nodup := by
  unfold List.Nodup
  rw [List.pairwise_map]
  refine List.Pairwise.imp_of_mem ?_ hn
  intro a b ha hb hab
  exact uniqueLabel_ne (h37 b hb a ha) (h37 a ha b hb) hab

theorem noNumbered_of_no37 {ls : List Leaf} (h37 : ∀ l ∈ ls, (37 : UInt8) ∉ l.label) : NoNumbered ls := by
  intro a _ b hb i he
  refine h37 b hb ?_
  rw [he]
  have e37 : (b!"%" : Bytes) = [37] := by decide
  simp [e37]

end Abe
