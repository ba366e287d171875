import Verif.Spec.Fields
import Verif.Proof.Sym

set_option linter.unusedSimpArgs false
set_option linter.unusedSectionVars false
set_option autoImplicit false

/-! Reading fields, for every byte string. -/

namespace Abe

theorem copyAt_iff {s : Bytes} {n : Nat} {x : Bytes} : BS.copyAt s 0 n = .ok x ↔ ∃ r, s = x ++ r ∧ x.length = n := by
  induction n generalizing s x with
  | zero =>
    constructor
    · intro h; cases h; exact ⟨s, rfl, rfl⟩
    · rintro ⟨r, rfl, h⟩; rw [List.length_eq_zero_iff.mp h]; rfl
  | succ n ih =>
    cases s with
    | nil =>
      constructor
      · intro h; cases h
      · rintro ⟨r, h, hl⟩
        have := congrArg List.length h
        simp at this
        omega
    | cons a s =>
      have e : BS.copyAt (a :: s) 1 n = BS.copyAt s 0 n := BS.copyAt_append [a] s 0 n
      simp only [BS.copyAt, BS.atR_zero, Res.ok_bind, Nat.zero_add, e]
      constructor
      · intro h
        obtain ⟨y, hy, h⟩ := (Res.bind_eq_ok _ _ _).mp h
        cases h
        obtain ⟨r, h1, h2⟩ := ih.mp hy
        exact ⟨r, by rw [h1]; rfl, by simp [h2]⟩
      · rintro ⟨r, h, hl⟩
        cases x with
        | nil => simp at hl
        | cons b x =>
          simp only [List.cons_append, List.cons.injEq] at h
          obtain ⟨rfl, h⟩ := h
          rw [ih.mpr ⟨r, h, by simpa using hl⟩]
          rfl

theorem copyAt_at {p s : Bytes} {n : Nat} {x : Bytes} (i : Nat) (hi : i = p.length) :
    BS.copyAt (p ++ s) i n = .ok x ↔ ∃ r, s = x ++ r ∧ x.length = n := by
  subst hi
  have := BS.copyAt_append p s 0 n
  rw [Nat.add_zero] at this
  rw [this]
  exact copyAt_iff

/-- Reading at the start. -/
theorem smartUnpack_iff {s x : Bytes} {j : Nat} :
    BS.smartUnpack s 0 = .ok (x, j) ↔ ∃ f r, s = f ++ r ∧ Field f x ∧ j = f.length := by
  constructor
  · intro h
    unfold BS.smartUnpack at h
    obtain ⟨ty, h1, h⟩ := (Res.bind_eq_ok _ _ _).mp h
    cases s with
    | nil => cases h1
    | cons t s =>
    cases h1
    split at h
    · rename_i e
      subst e
      simp only [BS.unpack, BS.get32bits] at h
      obtain ⟨⟨n, j'⟩, h1, h⟩ := (Res.bind_eq_ok _ _ _).mp h
      obtain ⟨y, h2, h⟩ := (Res.bind_eq_ok _ _ _).mp h
      cases h
      match s, h1, h2 with
      | [], h1, _ => cases h1
      | [_], h1, _ => cases h1
      | [_, _], h1, _ => cases h1
      | [_, _, _], h1, _ => cases h1
      | a :: b :: c :: d :: s, h1, h2 =>
        cases h1
        obtain ⟨r, h3, h4⟩ := (copyAt_at (p := [0xC3, a, b, c, d]) (s := s) _ rfl).mp h2
        exact ⟨0xC3 :: a :: b :: c :: d :: x, r, by rw [h3]; rfl, Field.long a b c d x h4.symm, by
          simp only [List.length_cons, h4]; omega⟩
    · split at h
      · rename_i _ e
        subst e
        simp only [BS.unpack16bits, BS.get16bits] at h
        obtain ⟨⟨n, j'⟩, h1, h⟩ := (Res.bind_eq_ok _ _ _).mp h
        obtain ⟨y, h2, h⟩ := (Res.bind_eq_ok _ _ _).mp h
        cases h
        match s, h1, h2 with
        | [], h1, _ => cases h1
        | [_], h1, _ => cases h1
        | a :: b :: s, h1, h2 =>
          cases h1
          obtain ⟨r, h3, h4⟩ := (copyAt_at (p := [0xB2, a, b]) (s := s) _ rfl).mp h2
          exact ⟨0xB2 :: a :: b :: x, r, by rw [h3]; rfl, Field.mid a b x (by rw [h4]), by
            simp only [List.length_cons, h4]; omega⟩
      · split at h
        · rename_i _ _ e
          subst e
          simp only [BS.unpack8bits] at h
          obtain ⟨n, h1, h⟩ := (Res.bind_eq_ok _ _ _).mp h
          obtain ⟨y, h2, h⟩ := (Res.bind_eq_ok _ _ _).mp h
          cases h
          match s, h1, h2 with
          | [], h1, _ => cases h1
          | a :: s, h1, h2 =>
            cases h1
            obtain ⟨r, h3, h4⟩ := (copyAt_at (p := [0xA1, n]) (s := s) _ rfl).mp h2
            exact ⟨0xA1 :: n :: x, r, by rw [h3]; rfl, Field.short n x h4.symm, by
              simp only [List.length_cons, h4]; omega⟩
        · rename_i e1 e2 e3
          cases h
          exact ⟨[ty], s, rfl, Field.other ty e3 e2 e1, rfl⟩
  · rintro ⟨f, r, rfl, hf, rfl⟩
    cases hf with
    | short n x hn =>
      have h := (copyAt_at (p := [0xA1, n]) (s := x ++ r) (n := n.toNat) _ rfl).mpr ⟨r, rfl, hn.symm⟩
      have h' : BS.copyAt (0xA1 :: n :: (x ++ r)) (0 + 1 + 1) n.toNat = .ok x := h
      rw [hn] at h'
      show BS.unpack8bits (0xA1 :: n :: (x ++ r)) (0 + 1) = _
      simp only [BS.unpack8bits, BS.atR_succ, BS.atR_zero, Res.ok_bind, hn, h', List.length_cons]
      exact congrArg (fun n => Res.ok (x, n)) (by omega)
    | mid a b x hn =>
      have h := (copyAt_at (p := [0xB2, a, b]) (s := x ++ r) (n := a.toNat * 256 + b.toNat) _ rfl).mpr ⟨r, rfl, hn.symm⟩
      have h' : BS.copyAt (0xB2 :: a :: b :: (x ++ r)) (0 + 1 + 2) (a.toNat * 256 + b.toNat) = .ok x := h
      rw [hn] at h'
      show BS.unpack16bits (0xB2 :: a :: b :: (x ++ r)) (0 + 1) = _
      simp only [BS.unpack16bits, BS.get16bits, BS.atR_succ, BS.atR_zero, Res.ok_bind, hn, h', List.length_cons]
      exact congrArg (fun n => Res.ok (x, n)) (by omega)
    | long a b c d x hn =>
      have e : ((a.toNat * 256 + b.toNat) * 256 + c.toNat) * 256 + d.toNat = x.length := hn
      have h := (copyAt_at (p := [0xC3, a, b, c, d]) (s := x ++ r) (n := ((a.toNat * 256 + b.toNat) * 256 + c.toNat) * 256 + d.toNat)
        _ rfl).mpr ⟨r, rfl, e.symm⟩
      have h' : BS.copyAt (0xC3 :: a :: b :: c :: d :: (x ++ r)) (0 + 1 + 4)
        (((a.toNat * 256 + b.toNat) * 256 + c.toNat) * 256 + d.toNat) = .ok x := h
      rw [e] at h'
      show BS.unpack (0xC3 :: a :: b :: c :: d :: (x ++ r)) (0 + 1) = _
      simp only [BS.unpack, BS.get32bits, BS.atR_succ, BS.atR_zero, Res.ok_bind, e, h', List.length_cons]
      exact congrArg (fun n => Res.ok (x, n)) (by omega)
    | other t h1 h2 h3 =>
      show (if t = 0xC3 then _ else if t = 0xB2 then _ else if t = 0xA1 then _ else _) = _
      rw [if_neg h3, if_neg h2, if_neg h1]
      rfl

/-- Reading anywhere. -/
theorem smartUnpack_at_iff {p s x : Bytes} {j : Nat} :
    BS.smartUnpack (p ++ s) p.length = .ok (x, j) ↔ ∃ f r, s = f ++ r ∧ Field f x ∧ j = (p ++ f).length := by
  have h := BS.smartUnpack_shift p s 0
  rw [Nat.add_zero] at h
  rw [h]
  constructor
  · intro h
    obtain ⟨⟨y, k⟩, h1, h2⟩ := (Res.bind_eq_ok _ _ _).mp h
    cases h2
    obtain ⟨f, r, h3, h4, h5⟩ := smartUnpack_iff.mp h1
    exact ⟨f, r, h3, h4, by rw [h5, List.length_append]⟩
  · rintro ⟨f, r, h3, h4, h5⟩
    rw [smartUnpack_iff.mpr ⟨f, r, h3, h4, rfl⟩, h5, List.length_append]
    rfl

/-- A text is read in one way only. -/
theorem Field.unique {f f' x x' r r' : Bytes} (h : Field f x) (h' : Field f' x') (e : f ++ r = f' ++ r') :
    f = f' ∧ x = x' ∧ r = r' := by
  have h1 := smartUnpack_iff.mpr ⟨f, r, rfl, h, rfl⟩
  have h2 := smartUnpack_iff.mpr ⟨f', r', rfl, h', rfl⟩
  rw [e, h2] at h1
  simp only [Res.ok.injEq, Prod.mk.injEq] at h1
  have := List.append_inj e h1.2.symm
  exact ⟨this.1, h1.1.symm, this.2⟩

theorem Field.ne_nil {f x : Bytes} (h : Field f x) : f ≠ [] := by
  cases h <;> simp

theorem fields_cons_inv {z x : Bytes} {xs : List Bytes} {r : Bytes} (h : Fields z (x :: xs) r) :
    ∃ f s, z = f ++ s ∧ Field f x ∧ Fields s xs r := by
  cases h with
  | cons h1 h2 => exact ⟨_, _, rfl, h1, h2⟩

theorem fields_nil_inv {z r : Bytes} (h : Fields z [] r) : z = r := by
  cases h; rfl

theorem Fields.unique {z : Bytes} {xs xs' : List Bytes} {r r' : Bytes} (h : Fields z xs r) (h' : Fields z xs' r')
    (hl : xs.length = xs'.length) : xs = xs' ∧ r = r' := by
  induction h generalizing xs' r' with
  | nil r =>
    cases xs' with
    | nil => exact ⟨rfl, fields_nil_inv h'⟩
    | cons _ _ => simp at hl
  | cons hf hs ih =>
    cases xs' with
    | nil => simp at hl
    | cons y ys =>
      obtain ⟨f', s', e, hf', hs'⟩ := fields_cons_inv h'
      obtain ⟨_, rfl, rfl⟩ := hf.unique hf' e
      obtain ⟨rfl, rfl⟩ := ih hs' (by simpa using hl)
      exact ⟨rfl, rfl⟩

/-- The three steps of reading. -/
theorem read3_iff {α : Type} {z : Bytes} {k : Bytes → Bytes → Bytes → Res α} {a : α} :
    ((BS.smartUnpack z 0 >>= fun p => BS.smartUnpack z p.2 >>= fun q => BS.smartUnpack z q.2 >>= fun t => k p.1 q.1 t.1) = .ok a ↔
      ∃ x y w r, Fields z [x, y, w] r ∧ k x y w = .ok a) := by
  constructor
  · intro h
    obtain ⟨⟨x, i⟩, h1, h⟩ := (Res.bind_eq_ok _ _ _).mp h
    obtain ⟨⟨y, j⟩, h2, h⟩ := (Res.bind_eq_ok _ _ _).mp h
    obtain ⟨⟨w, l⟩, h3, h⟩ := (Res.bind_eq_ok _ _ _).mp h
    obtain ⟨f1, r1, rfl, hf1, rfl⟩ := smartUnpack_iff.mp h1
    obtain ⟨f2, r2, rfl, hf2, rfl⟩ := smartUnpack_at_iff.mp h2
    rw [← List.append_assoc] at h3
    obtain ⟨f3, r3, rfl, hf3, rfl⟩ := smartUnpack_at_iff.mp h3
    exact ⟨x, y, w, r3, .cons hf1 (.cons hf2 (.cons hf3 (.nil _))), h⟩
  · rintro ⟨x, y, w, r, hz, h⟩
    obtain ⟨f1, s1, rfl, hf1, hs1⟩ := fields_cons_inv hz
    obtain ⟨f2, s2, rfl, hf2, hs2⟩ := fields_cons_inv hs1
    obtain ⟨f3, s3, rfl, hf3, hs3⟩ := fields_cons_inv hs2
    rw [smartUnpack_iff.mpr ⟨f1, _, rfl, hf1, rfl⟩, Res.ok_bind, smartUnpack_at_iff.mpr ⟨f2, _, rfl, hf2, rfl⟩, Res.ok_bind]
    have h3 := (smartUnpack_at_iff (p := f1 ++ f2) (s := f3 ++ s3) (x := w)).mpr ⟨f3, _, rfl, hf3, rfl⟩
    rw [List.append_assoc] at h3
    rw [h3, Res.ok_bind]
    exact h

end Abe
