import Verif.Spec.Items
import Verif.Proof.Fields
import Verif.Proof.Container
import Verif.Props.Outcome
import Verif.Props.SymExact
import Verif.Props.Container

set_option linter.unusedSimpArgs false
set_option linter.unusedSectionVars false
set_option autoImplicit false

/-! C148: which bytes are read as containers, ciphertexts and keys. -/

namespace Abe
namespace Accepted

variable {G1 G2 GT : Type} {mk : Mktime} {cd : Codec G1 G2 GT}

open SymExact (unpack_or unpackLong_or fields_peel no_field fields_end)

/-! ### Values -/

theorem atR_cons_succ (x : UInt8) (b : Bytes) (i : Nat) : BS.atR (x :: b) (i + 1) = BS.atR b i := rfl

/-- The second field of a value, behind its tag. -/
theorem unpack1 (y : UInt8) (t : Bytes) :
    (∃ f x r, t = f ++ r ∧ Field f x ∧ BS.smartUnpack (y :: t) 1 = .ok (x, f.length + 1)) ∨
    ((∀ f x r, t = f ++ r → ¬ Field f x) ∧ BS.smartUnpack (y :: t) 1 = .throw .outOfRange) := by
  rcases unpack_or (y :: t) 1 with ⟨⟨x, j⟩, h⟩ | h
  · obtain ⟨f, r, e, hf, hj⟩ := (smartUnpack_at_iff (p := [y])).mp h
    refine Or.inl ⟨f, x, r, e, hf, ?_⟩
    rw [h, hj]
    simp
  · refine Or.inr ⟨fun f x r e hf => ?_, h⟩
    have := (smartUnpack_at_iff (p := [y])).mpr ⟨f, r, e, hf, rfl⟩
    rw [show BS.smartUnpack ([y] ++ t) [y].length = BS.smartUnpack (y :: t) 1 from rfl, h] at this
    cases this

theorem int_cases (t : Bytes) (ty : UInt8) (hty : ty = 0xA1) :
    (∃ a b c d r, t = a :: b :: c :: d :: r ∧
      UInteger.deserializeChecked ⟨0, 0⟩ (ty :: t) = .ok ⟨UInt32.ofNat (num4 a b c d), 0⟩) ∨
    ((∀ a b c d r, t ≠ a :: b :: c :: d :: r) ∧ UInteger.deserializeChecked ⟨0, 0⟩ (ty :: t) = .throw .outOfRange) := by
  subst hty
  match t with
  | a :: b :: c :: d :: r =>
    refine Or.inl ⟨a, b, c, d, r, rfl, ?_⟩
    simp [UInteger.deserializeChecked, UInteger.deserialize, UInteger.read, BS.atR, BS.beVal, num4]
  | [] => exact Or.inr ⟨by simp, rfl⟩
  | [a] => exact Or.inr ⟨by simp, rfl⟩
  | [a, b] => exact Or.inr ⟨by simp, rfl⟩
  | [a, b, c] => exact Or.inr ⟨by simp, rfl⟩

theorem zp_cases (order : Nat) (t : Bytes) :
    (t.length ≤ 2 ∧ zpDeserialize order (0xB1 :: t) = .ok 0) ∨
    (∃ a b m r, t = a :: b :: (m ++ r) ∧ m.length = a.toNat * 256 + b.toNat ∧ m ++ r ≠ [] ∧
      zpDeserialize order (0xB1 :: t) = .ok (if order < numOf m then numOf m % order else numOf m)) ∨
    (∃ a b m, t = a :: b :: m ∧ m ≠ [] ∧ m.length < a.toNat * 256 + b.toNat ∧ zpDeserialize order (0xB1 :: t) = .ub) := by
  match t with
  | [] => exact Or.inl ⟨by simp, rfl⟩
  | [a] => exact Or.inl ⟨by simp, rfl⟩
  | [a, b] => exact Or.inl ⟨by simp, rfl⟩
  | a :: b :: x :: m' =>
    right
    have hd : zpDeserialize order (0xB1 :: a :: b :: x :: m') =
        (if (x :: m').length < a.toNat * 256 + b.toNat then .ub
         else .ok (if order < BS.beVal ((x :: m').take (a.toNat * 256 + b.toNat)) then
            BS.beVal ((x :: m').take (a.toNat * 256 + b.toNat)) % order else BS.beVal ((x :: m').take (a.toNat * 256 + b.toNat)))) := by
      simp only [zpDeserialize, BS.atR, List.getElem?_cons_zero, List.getElem?_cons_succ, Res.ok_bind, List.length_cons,
        List.drop_succ_cons, List.drop_zero]
      rw [if_pos ⟨trivial, by omega⟩]
      simp only [show ∀ n k : Nat, (n + 1 + 1 + 1 + 1 < 3 + k) = (n + 1 < k) from fun n k => by simp; omega]
    rw [hd]
    by_cases hl : (x :: m').length < a.toNat * 256 + b.toNat
    · exact Or.inr ⟨a, b, x :: m', rfl, by simp, hl, if_pos hl⟩
    · refine Or.inl ⟨a, b, (x :: m').take (a.toNat * 256 + b.toNat), (x :: m').drop (a.toNat * 256 + b.toNat), ?_, ?_, ?_, ?_⟩
      · rw [List.take_append_drop]
      · rw [List.length_take]; omega
      · rw [List.take_append_drop]; simp
      · rw [if_neg hl]; rfl

theorem bytes_cases (t : Bytes) :
    (∃ a b c d x, t = a :: b :: c :: d :: x ∧ num4 a b c d = x.length ∧ x ≠ [] ∧ BS.deserialize [] (0x1D :: t) = x) ∨
    ((∀ a b c d x, t = a :: b :: c :: d :: x → num4 a b c d = x.length → x = []) ∧ BS.deserialize [] (0x1D :: t) = []) := by
  match t with
  | [] => exact Or.inr ⟨by simp, rfl⟩
  | [a] => exact Or.inr ⟨by simp, rfl⟩
  | [a, b] => exact Or.inr ⟨by simp, rfl⟩
  | [a, b, c] => exact Or.inr ⟨by simp, rfl⟩
  | [a, b, c, d] => exact Or.inr ⟨by rintro a b c d x h -; cases h; rfl, rfl⟩
  | a :: b :: c :: d :: y :: x =>
    have hb : BS.beVal [a, b, c, d] = num4 a b c d := by simp [BS.beVal, num4]
    have hd : BS.deserialize [] (0x1D :: a :: b :: c :: d :: y :: x) =
        if (y :: x).length = num4 a b c d then y :: x else [] := by
      simp only [BS.deserialize, List.length_cons, List.drop_succ_cons, List.drop_zero, List.take_succ_cons, List.take_zero, hb]
      rw [if_pos (by omega)]
      by_cases h : x.length + 1 = num4 a b c d
      · rw [if_pos h, if_pos (by omega), BS.getSubset, if_pos (by simp only [List.length_cons]; omega)]
        simp only [List.drop_succ_cons, List.drop_zero]
        exact List.take_of_length_le (by simp only [List.length_cons]; omega)
      · rw [if_neg h, if_neg (by omega)]
    rw [hd]
    by_cases h : (y :: x).length = num4 a b c d
    · exact Or.inl ⟨a, b, c, d, y :: x, rfl, h.symm, by simp, if_pos h⟩
    · refine Or.inr ⟨?_, if_neg h⟩
      rintro a' b' c' d' x' e h'
      cases e
      exact absurd h'.symm h

/-- A value of the grammar is read. -/
theorem value_ok {v : Bytes} {o : Option (Obj G1 G2 GT)} (h : ValueOf mk cd v o) (c : Container G1 G2 GT) (k : Bytes) :
    Container.deserializeElement mk cd c k v = .ok (keep c k o) := by
  unfold Container.deserializeElement Container.readObj
  cases h with
  | int a b c' d t =>
    rcases int_cases (a :: b :: c' :: d :: t) 0xA1 rfl with ⟨a', b', c'', d', r, e, h⟩ | ⟨h, -⟩
    · cases e
      simp only [if_true, h, Res.ok_bind]
      rfl
    · exact absurd rfl (h a b c' d t)
  | zpShort t hl =>
    rcases zp_cases cd.order t with ⟨-, h⟩ | ⟨a, b, m, r, rfl, -, hne, -⟩ | ⟨a, b, m, rfl, hne, -⟩
    · simp only [if_neg (show ¬ (0xB1 : UInt8) = 0xA1 by decide), if_true, h, Res.ok_bind]
      rfl
    · have := List.length_pos_iff.mpr hne
      simp only [List.length_cons] at hl; omega
    · have := List.length_pos_iff.mpr hne
      simp only [List.length_cons] at hl; omega
  | zp a b m t hl hne =>
    rcases zp_cases cd.order (a :: b :: (m ++ t)) with ⟨h, -⟩ | ⟨a', b', m', r', e, hl', -, h⟩ | ⟨a', b', m', e, -, h', -⟩
    · have := List.length_pos_iff.mpr hne
      simp only [List.length_cons] at h; omega
    · simp only [List.cons.injEq] at e
      obtain ⟨rfl, rfl, e⟩ := e
      obtain ⟨rfl, rfl⟩ := List.append_inj e (by omega)
      simp only [if_neg (show ¬ (0xB1 : UInt8) = 0xA1 by decide), if_true, h, Res.ok_bind]
      rfl
    · cases e
      simp only [List.length_append] at h'; omega
  | g1 f x t e hf hl hr =>
    simp only [if_neg (show ¬ (0xB2 : UInt8) = 0xA1 by decide), if_neg (show ¬ (0xB2 : UInt8) = 0xB1 by decide), if_true]
    rcases unpack1 0xB2 (f ++ t) with ⟨f', x', r', e', hf', h⟩ | ⟨h, -⟩
    · obtain ⟨rfl, rfl, rfl⟩ := hf.unique hf' e'
      simp only [groupDeserialize, h, Res.ok_bind]
      rw [if_neg (by omega), hr]
      rfl
    · exact absurd hf (h f x t rfl)
  | g2 f x t e hf hl hr =>
    simp only [if_neg (show ¬ (0xB3 : UInt8) = 0xA1 by decide), if_neg (show ¬ (0xB3 : UInt8) = 0xB1 by decide),
      if_neg (show ¬ (0xB3 : UInt8) = 0xB2 by decide), if_true]
    rcases unpack1 0xB3 (f ++ t) with ⟨f', x', r', e', hf', h⟩ | ⟨h, -⟩
    · obtain ⟨rfl, rfl, rfl⟩ := hf.unique hf' e'
      simp only [groupDeserialize, h, Res.ok_bind]
      rw [if_neg (by omega), hr]
      rfl
    · exact absurd hf (h f x t rfl)
  | gt f x t e hf hr =>
    simp only [if_neg (show ¬ (0xB4 : UInt8) = 0xA1 by decide), if_neg (show ¬ (0xB4 : UInt8) = 0xB1 by decide),
      if_neg (show ¬ (0xB4 : UInt8) = 0xB2 by decide), if_neg (show ¬ (0xB4 : UInt8) = 0xB3 by decide), if_true]
    rcases unpack1 0xB4 (f ++ t) with ⟨f', x', r', e', hf', h⟩ | ⟨h, -⟩
    · obtain ⟨rfl, rfl, rfl⟩ := hf.unique hf' e'
      simp only [gtDeserialize, h, Res.ok_bind]
      rw [hr]
      rfl
    · exact absurd hf (h f x t rfl)
  | bytes a b c' d x hl hne =>
    rcases bytes_cases (a :: b :: c' :: d :: x) with ⟨a', b', c'', d', x', e, -, -, h⟩ | ⟨h, -⟩
    · cases e
      simp only [show ¬ (0x1D : UInt8) = 0xA1 by decide, show ¬ (0x1D : UInt8) = 0xB1 by decide, show ¬ (0x1D : UInt8) = 0xB2 by decide,
        show ¬ (0x1D : UInt8) = 0xB3 by decide, show ¬ (0x1D : UInt8) = 0xB4 by decide, if_false, if_true, h, Res.ok_bind]
      rfl
    · exact absurd (h a b c' d x rfl hl) hne
  | noBytes t ht =>
    rcases bytes_cases t with ⟨a', b', c'', d', x', e, hl, hne, -⟩ | ⟨-, h⟩
    · exact absurd (ht _ _ _ _ _ e hl) hne
    · simp only [show ¬ (0x1D : UInt8) = 0xA1 by decide, show ¬ (0x1D : UInt8) = 0xB1 by decide, show ¬ (0x1D : UInt8) = 0xB2 by decide,
        show ¬ (0x1D : UInt8) = 0xB3 by decide, show ¬ (0x1D : UInt8) = 0xB4 by decide, if_false, if_true, h, Res.ok_bind]
      rfl
  | policy s e hv hc he hu =>
    obtain ⟨p, h⟩ := (C146_accepted_iff (mk := mk) (0x7A :: s)).mpr ⟨e, hv, hc, he, hu⟩
    simp only [show ¬ (0x7A : UInt8) = 0xA1 by decide, show ¬ (0x7A : UInt8) = 0xB1 by decide, show ¬ (0x7A : UInt8) = 0xB2 by decide,
      show ¬ (0x7A : UInt8) = 0xB3 by decide, show ¬ (0x7A : UInt8) = 0xB4 by decide, show ¬ (0x7A : UInt8) = 0x1D by decide,
      if_false, if_true, h, Res.ok_bind]
    rfl
  | attrs s l h =>
    simp only [show ¬ (0x7C : UInt8) = 0xA1 by decide, show ¬ (0x7C : UInt8) = 0xB1 by decide, show ¬ (0x7C : UInt8) = 0xB2 by decide,
      show ¬ (0x7C : UInt8) = 0xB3 by decide, show ¬ (0x7C : UInt8) = 0xB4 by decide, show ¬ (0x7C : UInt8) = 0x1D by decide,
      show ¬ (0x7C : UInt8) = 0x7A by decide, if_false, if_true, h, Res.ok_bind]
    rfl
  | skipped y t hy =>
    rcases hy with rfl | rfl <;> rfl

theorem value_ub {v : Bytes} (h : UndefinedValue mk cd v) (c : Container G1 G2 GT) (k : Bytes) :
    Container.deserializeElement mk cd c k v = .ub := by
  unfold Container.deserializeElement Container.readObj
  cases h with
  | zp a b m hne hl =>
    rcases zp_cases cd.order (a :: b :: m) with ⟨h, -⟩ | ⟨a', b', m', r', e, hl', -, h⟩ | ⟨a', b', m', e, -, h', h⟩
    · have := List.length_pos_iff.mpr hne
      simp only [List.length_cons] at h; omega
    · cases e
      simp only [List.length_append] at hl; omega
    · simp only [if_neg (show ¬ (0xB1 : UInt8) = 0xA1 by decide), if_true, h]
      rfl
  | g1 f x t hf hl hr =>
    simp only [if_neg (show ¬ (0xB2 : UInt8) = 0xA1 by decide), if_neg (show ¬ (0xB2 : UInt8) = 0xB1 by decide), if_true]
    rcases unpack1 0xB2 (f ++ t) with ⟨f', x', r', e', hf', h⟩ | ⟨h, -⟩
    · obtain ⟨rfl, rfl, rfl⟩ := hf.unique hf' e'
      simp only [groupDeserialize, h, Res.ok_bind]
      rw [if_neg (by omega), hr]
      rfl
    · exact absurd hf (h f x t rfl)
  | g2 f x t hf hl hr =>
    simp only [if_neg (show ¬ (0xB3 : UInt8) = 0xA1 by decide), if_neg (show ¬ (0xB3 : UInt8) = 0xB1 by decide),
      if_neg (show ¬ (0xB3 : UInt8) = 0xB2 by decide), if_true]
    rcases unpack1 0xB3 (f ++ t) with ⟨f', x', r', e', hf', h⟩ | ⟨h, -⟩
    · obtain ⟨rfl, rfl, rfl⟩ := hf.unique hf' e'
      simp only [groupDeserialize, h, Res.ok_bind]
      rw [if_neg (by omega), hr]
      rfl
    · exact absurd hf (h f x t rfl)
  | gt f x t hf hr =>
    simp only [if_neg (show ¬ (0xB4 : UInt8) = 0xA1 by decide), if_neg (show ¬ (0xB4 : UInt8) = 0xB1 by decide),
      if_neg (show ¬ (0xB4 : UInt8) = 0xB2 by decide), if_neg (show ¬ (0xB4 : UInt8) = 0xB3 by decide), if_true]
    rcases unpack1 0xB4 (f ++ t) with ⟨f', x', r', e', hf', h⟩ | ⟨h, -⟩
    · obtain ⟨rfl, rfl, rfl⟩ := hf.unique hf' e'
      simp only [gtDeserialize, h, Res.ok_bind]
      rw [hr]
      rfl
    · exact absurd hf (h f x t rfl)
  | policy s h =>
    simp only [show ¬ (0x7A : UInt8) = 0xA1 by decide, show ¬ (0x7A : UInt8) = 0xB1 by decide, show ¬ (0x7A : UInt8) = 0xB2 by decide,
      show ¬ (0x7A : UInt8) = 0xB3 by decide, show ¬ (0x7A : UInt8) = 0xB4 by decide, show ¬ (0x7A : UInt8) = 0x1D by decide,
      if_false, if_true, h]
    rfl

theorem value_end {v : Bytes} (h : EndValue cd v) (c : Container G1 G2 GT) (k : Bytes) :
    Container.deserializeElement mk cd c k v = .abort := by
  unfold Container.deserializeElement Container.readObj
  cases h with
  | size1 f x t hf h1 hn =>
    simp only [if_neg (show ¬ (0xB2 : UInt8) = 0xA1 by decide), if_neg (show ¬ (0xB2 : UInt8) = 0xB1 by decide), if_true]
    rcases unpack1 0xB2 (f ++ t) with ⟨f', x', r', e', hf', h⟩ | ⟨h, -⟩
    · obtain ⟨rfl, rfl, rfl⟩ := hf.unique hf' e'
      simp only [groupDeserialize, h, Res.ok_bind]
      rw [if_pos ⟨h1, hn⟩]
      rfl
    · exact absurd hf (h f x t rfl)
  | size2 f x t hf h1 hn =>
    simp only [if_neg (show ¬ (0xB3 : UInt8) = 0xA1 by decide), if_neg (show ¬ (0xB3 : UInt8) = 0xB1 by decide),
      if_neg (show ¬ (0xB3 : UInt8) = 0xB2 by decide), if_true]
    rcases unpack1 0xB3 (f ++ t) with ⟨f', x', r', e', hf', h⟩ | ⟨h, -⟩
    · obtain ⟨rfl, rfl, rfl⟩ := hf.unique hf' e'
      simp only [groupDeserialize, h, Res.ok_bind]
      rw [if_pos ⟨h1, hn⟩]
      rfl
    · exact absurd hf (h f x t rfl)
  | g1 f x t hf hl hr =>
    simp only [if_neg (show ¬ (0xB2 : UInt8) = 0xA1 by decide), if_neg (show ¬ (0xB2 : UInt8) = 0xB1 by decide), if_true]
    rcases unpack1 0xB2 (f ++ t) with ⟨f', x', r', e', hf', h⟩ | ⟨h, -⟩
    · obtain ⟨rfl, rfl, rfl⟩ := hf.unique hf' e'
      simp only [groupDeserialize, h, Res.ok_bind]
      rw [if_neg (by omega), hr]
      rfl
    · exact absurd hf (h f x t rfl)
  | g2 f x t hf hl hr =>
    simp only [if_neg (show ¬ (0xB3 : UInt8) = 0xA1 by decide), if_neg (show ¬ (0xB3 : UInt8) = 0xB1 by decide),
      if_neg (show ¬ (0xB3 : UInt8) = 0xB2 by decide), if_true]
    rcases unpack1 0xB3 (f ++ t) with ⟨f', x', r', e', hf', h⟩ | ⟨h, -⟩
    · obtain ⟨rfl, rfl, rfl⟩ := hf.unique hf' e'
      simp only [groupDeserialize, h, Res.ok_bind]
      rw [if_neg (by omega), hr]
      rfl
    · exact absurd hf (h f x t rfl)
  | gt f x t hf hr =>
    simp only [if_neg (show ¬ (0xB4 : UInt8) = 0xA1 by decide), if_neg (show ¬ (0xB4 : UInt8) = 0xB1 by decide),
      if_neg (show ¬ (0xB4 : UInt8) = 0xB2 by decide), if_neg (show ¬ (0xB4 : UInt8) = 0xB3 by decide), if_true]
    rcases unpack1 0xB4 (f ++ t) with ⟨f', x', r', e', hf', h⟩ | ⟨h, -⟩
    · obtain ⟨rfl, rfl, rfl⟩ := hf.unique hf' e'
      simp only [gtDeserialize, h, Res.ok_bind]
      rw [hr]
      rfl
    · exact absurd hf (h f x t rfl)

/-- Every byte string is one of the four kinds. -/
theorem value_cases (mk : Mktime) (cd : Codec G1 G2 GT) (v : Bytes) :
    (∃ o, ValueOf mk cd v o) ∨ UndefinedValue mk cd v ∨ EndValue cd v ∨
      ∀ (c : Container G1 G2 GT) (k : Bytes), ∃ e, Container.deserializeElement mk cd c k v = .throw e := by
  match v with
  | [] => exact Or.inr (Or.inr (Or.inr fun _ _ => ⟨_, rfl⟩))
  | ty :: t =>
    have hthrow : ∀ {e : Err}, Container.readObj mk cd (ty :: t) = .throw e →
        ∀ (c : Container G1 G2 GT) (k : Bytes), ∃ e, Container.deserializeElement mk cd c k (ty :: t) = .throw e := by
      intro e h c k
      exact ⟨e, by rw [Container.deserializeElement, h]; rfl⟩
    by_cases h1 : ty = 0xA1
    · subst h1
      rcases int_cases t 0xA1 rfl with ⟨a', b', c'', d', r, rfl, h⟩ | ⟨h, h'⟩
      · exact Or.inl ⟨_, .int ..⟩
      · exact Or.inr (Or.inr (Or.inr (hthrow (e := .outOfRange) (by simp only [Container.readObj, if_true, h']; rfl))))
    by_cases h2 : ty = 0xB1
    · subst h2
      rcases zp_cases cd.order t with ⟨hl, -⟩ | ⟨a, b, m, r, rfl, hl, hne, -⟩ | ⟨a, b, m, rfl, hne, hl, -⟩
      · exact Or.inl ⟨_, .zpShort t hl⟩
      · exact Or.inl ⟨_, .zp a b m r hl hne⟩
      · exact Or.inr (Or.inl (.zp a b m hne hl))
    by_cases h3 : ty = 0xB2
    · subst h3
      rcases unpack1 0xB2 t with ⟨f, x, r, rfl, hf, h⟩ | ⟨-, h⟩
      · by_cases hl : x.length = 1 ∨ x.length = cd.n1
        · cases hr : cd.r1 x with
          | ok e => exact Or.inl ⟨_, .g1 f x r e hf hl hr⟩
          | ub => exact Or.inr (Or.inl (.g1 f x r hf hl hr))
          | abort => exact Or.inr (Or.inr (Or.inl (.g1 f x r hf hl hr)))
          | throw e =>
            refine Or.inr (Or.inr (Or.inr (hthrow (e := e) ?_)))
            simp only [Container.readObj, if_neg h1, if_neg h2, if_true, groupDeserialize, h, Res.ok_bind]
            rw [if_neg (by omega), hr]
            rfl
        · exact Or.inr (Or.inr (Or.inl (.size1 f x r hf (fun e => hl (Or.inl e)) (fun e => hl (Or.inr e)))))
      · refine Or.inr (Or.inr (Or.inr (hthrow (e := .outOfRange) ?_)))
        simp only [Container.readObj, if_neg h1, if_neg h2, if_true, groupDeserialize, h]
        rfl
    by_cases h4 : ty = 0xB3
    · subst h4
      rcases unpack1 0xB3 t with ⟨f, x, r, rfl, hf, h⟩ | ⟨-, h⟩
      · by_cases hl : x.length = 1 ∨ x.length = cd.n2
        · cases hr : cd.r2 x with
          | ok e => exact Or.inl ⟨_, .g2 f x r e hf hl hr⟩
          | ub => exact Or.inr (Or.inl (.g2 f x r hf hl hr))
          | abort => exact Or.inr (Or.inr (Or.inl (.g2 f x r hf hl hr)))
          | throw e =>
            refine Or.inr (Or.inr (Or.inr (hthrow (e := e) ?_)))
            simp only [Container.readObj, if_neg h1, if_neg h2, if_neg h3, if_true, groupDeserialize, h, Res.ok_bind]
            rw [if_neg (by omega), hr]
            rfl
        · exact Or.inr (Or.inr (Or.inl (.size2 f x r hf (fun e => hl (Or.inl e)) (fun e => hl (Or.inr e)))))
      · refine Or.inr (Or.inr (Or.inr (hthrow (e := .outOfRange) ?_)))
        simp only [Container.readObj, if_neg h1, if_neg h2, if_neg h3, if_true, groupDeserialize, h]
        rfl
    by_cases h5 : ty = 0xB4
    · subst h5
      rcases unpack1 0xB4 t with ⟨f, x, r, rfl, hf, h⟩ | ⟨-, h⟩
      · cases hr : cd.rT x with
        | ok e => exact Or.inl ⟨_, .gt f x r e hf hr⟩
        | ub => exact Or.inr (Or.inl (.gt f x r hf hr))
        | abort => exact Or.inr (Or.inr (Or.inl (.gt f x r hf hr)))
        | throw e =>
          refine Or.inr (Or.inr (Or.inr (hthrow (e := e) ?_)))
          simp only [Container.readObj, if_neg h1, if_neg h2, if_neg h3, if_neg h4, if_true, gtDeserialize, h, Res.ok_bind]
          rw [hr]
          rfl
      · refine Or.inr (Or.inr (Or.inr (hthrow (e := .outOfRange) ?_)))
        simp only [Container.readObj, if_neg h1, if_neg h2, if_neg h3, if_neg h4, if_true, gtDeserialize, h]
        rfl
    by_cases h6 : ty = 0x1D
    · subst h6
      rcases bytes_cases t with ⟨a, b, c, d, x, rfl, hl, hne, -⟩ | ⟨h, -⟩
      · exact Or.inl ⟨_, .bytes a b c d x hl hne⟩
      · exact Or.inl ⟨_, .noBytes t h⟩
    by_cases h7 : ty = 0x7A
    · subst h7
      rcases createPolicyTree_cases mk (0x7A :: t) with ⟨e, hv, hc, he⟩ | h | ⟨h, -⟩
      · rcases createPolicyTree_total (mk := mk) hc hv he with ⟨-, h⟩ | ⟨hu, -⟩
        · exact Or.inr (Or.inl (.policy t h))
        · exact Or.inl ⟨_, .policy t e hv hc he hu⟩
      · refine Or.inr (Or.inr (Or.inr (hthrow (e := .invalidPolicyTree) ?_)))
        simp only [Container.readObj, if_neg h1, if_neg h2, if_neg h3, if_neg h4, if_neg h5, if_neg h6, if_true, h]
        rfl
      · exact Or.inr (Or.inl (.policy t h))
    by_cases h8 : ty = 0x7C
    · subst h8
      by_cases ha : ∃ al, createAttributeList mk (0x7C :: t) = .ok (some al)
      · obtain ⟨al, ha⟩ := ha
        exact Or.inl ⟨_, .attrs t al ha⟩
      · have h := (C146_list (mk := mk) (0x7C :: t)).2.mpr (fun h => ha ((C146_list (mk := mk) (0x7C :: t)).1.mpr h))
        refine Or.inr (Or.inr (Or.inr (hthrow (e := .invalidAttributeList) ?_)))
        simp only [Container.readObj, if_neg h1, if_neg h2, if_neg h3, if_neg h4, if_neg h5, if_neg h6, if_neg h7, if_true, h]
        rfl
    by_cases h9 : ty = 0xC1 ∨ ty = 0xC2
    · exact Or.inl ⟨_, .skipped ty t h9⟩
    · refine Or.inr (Or.inr (Or.inr (hthrow (e := .invalidInputType) ?_)))
      simp only [Container.readObj, if_neg h1, if_neg h2, if_neg h3, if_neg h4, if_neg h5, if_neg h6, if_neg h7, if_neg h8, if_neg h9]

/-- Which values are read, which are undefined and which end the program, whatever the container and the name. -/
theorem C148_value (v : Bytes) (c : Container G1 G2 GT) (k : Bytes) :
    (∀ c', Container.deserializeElement mk cd c k v = .ok c' ↔ ∃ o, ValueOf mk cd v o ∧ c' = keep c k o) ∧
    (Container.deserializeElement mk cd c k v = .ub ↔ UndefinedValue mk cd v) ∧
    (Container.deserializeElement mk cd c k v = .abort ↔ EndValue cd v) := by
  refine ⟨fun c' => ⟨fun h => ?_, ?_⟩, ⟨fun h => ?_, fun h => value_ub h c k⟩, ⟨fun h => ?_, fun h => value_end h c k⟩⟩
  · rcases value_cases mk cd v with ⟨o, ho⟩ | hu | he | ht
    · rw [value_ok ho c k] at h; cases h; exact ⟨o, ho, rfl⟩
    · rw [value_ub hu c k] at h; cases h
    · rw [value_end he c k] at h; cases h
    · obtain ⟨e, ht⟩ := ht c k
      rw [ht] at h; cases h
  · rintro ⟨o, ho, rfl⟩
    exact value_ok ho c k
  · rcases value_cases mk cd v with ⟨o, ho⟩ | hu | he | ht
    · rw [value_ok ho c k] at h; cases h
    · exact hu
    · rw [value_end he c k] at h; cases h
    · obtain ⟨e, ht⟩ := ht c k
      rw [ht] at h; cases h
  · rcases value_cases mk cd v with ⟨o, ho⟩ | hu | he | ht
    · rw [value_ok ho c k] at h; cases h
    · rw [value_ub hu c k] at h; cases h
    · exact he
    · obtain ⟨e, ht⟩ := ht c k
      rw [ht] at h; cases h

/-! ### Containers -/

theorem fields_split {s k v r : Bytes} {xs : List Bytes} {f1 f2 s2 : Bytes} (hs : s = f1 ++ (f2 ++ s2)) {k' v' : Bytes}
    (h1 : Field f1 k') (h2 : Field f2 v') (h : Fields s (k :: v :: xs) r) : k = k' ∧ v = v' ∧ Fields s2 xs r := by
  subst hs
  obtain ⟨e1, h⟩ := fields_peel h1 h
  obtain ⟨e2, h⟩ := fields_peel h2 h
  exact ⟨e1, e2, h⟩

/-- One pass of the loop. -/
theorem loop_cases (p s : Bytes) (fuel : Nat) (c : Container G1 G2 GT) :
    (Container.deserLoop mk cd (p ++ s) (fuel + 1) p.length c = .throw .outOfRange ∧ ∀ k v xs r, ¬ Fields s (k :: v :: xs) r) ∨
    (∃ f1 f2 k v s2, s = f1 ++ (f2 ++ s2) ∧ Field f1 k ∧ Field f2 v ∧
      Container.deserLoop mk cd (p ++ s) (fuel + 1) p.length c =
        (Container.deserializeElement mk cd c k v >>= fun c' =>
          if s2 = [] then .ok c' else Container.deserLoop mk cd ((p ++ (f1 ++ f2)) ++ s2) fuel (p ++ (f1 ++ f2)).length c')) := by
  simp only [Container.deserLoop]
  rcases unpack_or (p ++ s) p.length with ⟨⟨k, i⟩, h1⟩ | h1
  rotate_left
  · exact Or.inl ⟨by rw [h1]; rfl, fun k v xs r h => no_field h1 h⟩
  obtain ⟨f1, s1, rfl, hf1, rfl⟩ := smartUnpack_at_iff.mp h1
  rw [h1, Res.ok_bind]
  dsimp only
  rw [← List.append_assoc]
  rcases unpack_or ((p ++ f1) ++ s1) (p ++ f1).length with ⟨⟨v, i⟩, h2⟩ | h2
  rotate_left
  · exact Or.inl ⟨by rw [h2]; rfl, fun k v xs r h => no_field h2 (fields_peel hf1 h).2⟩
  obtain ⟨f2, s2, rfl, hf2, rfl⟩ := smartUnpack_at_iff.mp h2
  rw [h2, Res.ok_bind]
  dsimp only
  refine Or.inr ⟨f1, f2, k, v, s2, rfl, hf1, hf2, ?_⟩
  have hl : ((p ++ f1 ++ f2).length < (p ++ f1 ++ (f2 ++ s2)).length) ↔ ¬ s2 = [] := by
    rw [← List.length_eq_zero_iff]
    simp only [List.length_append]
    omega
  congr 1
  funext c'
  by_cases he : s2 = []
  · rw [if_neg (by rw [hl]; exact not_not_intro he), if_pos he]
  · rw [if_pos (hl.mpr he), if_neg he]
    simp only [List.append_assoc]

theorem loop_ok (fuel : Nat) : ∀ (p s : Bytes) (c c' : Container G1 G2 GT), s.length < fuel →
    (Container.deserLoop mk cd (p ++ s) fuel p.length c = .ok c' ↔
      ∃ kvs, kvs ≠ [] ∧ Fields s (inTurn kvs) [] ∧ Listed mk cd c kvs c') := by
  induction fuel with
  | zero => intro p s c c' h; omega
  | succ fuel ih =>
    intro p s c c' hlen
    rcases loop_cases (mk := mk) (cd := cd) p s fuel c with ⟨h, hno⟩ | ⟨f1, f2, k, v, s2, hs, h1, h2, h⟩
    · rw [h]
      constructor
      · intro h; cases h
      · rintro ⟨kvs, hne, hf, -⟩
        match kvs with
        | (k, v) :: kvs => exact absurd hf (hno k v _ _)
    · rw [h, Res.bind_eq_ok]
      have hl2 : s2.length < fuel := by
        have := List.length_pos_iff.mpr h1.ne_nil
        subst hs
        simp only [List.length_append] at hlen
        omega
      constructor
      · rintro ⟨c1, e1, e2⟩
        obtain ⟨o, ho, rfl⟩ := ((C148_value v c k).1 c1).mp e1
        by_cases he : s2 = []
        · rw [if_pos he] at e2
          cases e2
          refine ⟨[(k, v)], by simp, ?_, .cons ho (.nil _)⟩
          subst hs he
          exact .cons h1 (.cons h2 (.nil []))
        · rw [if_neg he] at e2
          obtain ⟨kvs, hne, hf, hlist⟩ := (ih _ _ _ _ hl2).mp e2
          refine ⟨(k, v) :: kvs, by simp, ?_, .cons ho hlist⟩
          subst hs
          exact .cons h1 (.cons h2 hf)
      · rintro ⟨kvs, hne, hf, hlist⟩
        match kvs, hlist with
        | (k', v') :: kvs, .cons ho hlist =>
          obtain ⟨rfl, rfl, hf⟩ := fields_split hs h1 h2 hf
          refine ⟨_, ((C148_value v' c k').1 _).mpr ⟨_, ho, rfl⟩, ?_⟩
          by_cases he : s2 = []
          · rw [if_pos he]
            subst he
            match kvs, hlist with
            | [], .nil _ => rfl
            | (k, v) :: kvs, _ => exact absurd hf fields_end
          · rw [if_neg he]
            refine (ih _ _ _ _ hl2).mpr ⟨kvs, ?_, hf, hlist⟩
            rintro rfl
            exact he (fields_nil_inv hf)

/-- The names and values before a bad one. -/
theorem loop_bad (R : Res (Container G1 G2 GT)) (hR : (∀ c, R ≠ .ok c) ∧ ∀ e, R ≠ .throw e) (Bad : Bytes → Prop)
    (hbad : ∀ (c : Container G1 G2 GT) k v, Container.deserializeElement mk cd c k v = R ↔ Bad v) (fuel : Nat) :
    ∀ (p s : Bytes) (c : Container G1 G2 GT), s.length < fuel →
    (Container.deserLoop mk cd (p ++ s) fuel p.length c = R ↔
      ∃ kvs k v r, Fields s (inTurn kvs ++ [k, v]) r ∧ (∀ q ∈ kvs, ∃ o, ValueOf mk cd q.2 o) ∧ Bad v) := by
  induction fuel with
  | zero => intro p s c h; omega
  | succ fuel ih =>
    intro p s c hlen
    rcases loop_cases (mk := mk) (cd := cd) p s fuel c with ⟨h, hno⟩ | ⟨f1, f2, k, v, s2, hs, h1, h2, h⟩
    · rw [h]
      constructor
      · intro h; exact absurd h.symm (hR.2 _)
      · rintro ⟨kvs, k, v, r, hf, -⟩
        match kvs with
        | [] => exact absurd hf (hno k v _ _)
        | (k', v') :: kvs => exact absurd hf (hno k' v' _ _)
    · rw [h]
      have hl2 : s2.length < fuel := by
        have := List.length_pos_iff.mpr h1.ne_nil
        subst hs
        simp only [List.length_append] at hlen
        omega
      by_cases hb : Bad v
      · have e := (hbad c k v).mpr hb
        have e' : ∀ g : Container G1 G2 GT → Res (Container G1 G2 GT), (R >>= g) = R := by
          intro g
          cases hr : R with
          | ok x => exact absurd hr (hR.1 x)
          | throw x => exact absurd hr (hR.2 x)
          | ub => rfl
          | abort => rfl
        rw [e, e']
        refine ⟨fun _ => ⟨[], k, v, s2, ?_, by simp, hb⟩, fun _ => rfl⟩
        subst hs
        exact .cons h1 (.cons h2 (.nil s2))
      · constructor
        · intro e
          cases hd : Container.deserializeElement mk cd c k v with
          | ok c1 =>
            rw [hd, Res.ok_bind] at e
            obtain ⟨o, ho, -⟩ := ((C148_value v c k).1 c1).mp hd
            by_cases he : s2 = []
            · rw [if_pos he] at e
              exact absurd e.symm (hR.1 _)
            · rw [if_neg he] at e
              obtain ⟨kvs, k', v', r, hf, hk, hb'⟩ := (ih _ _ _ hl2).mp e
              refine ⟨(k, v) :: kvs, k', v', r, ?_, ?_, hb'⟩
              · subst hs
                exact .cons h1 (.cons h2 hf)
              · intro q hq
                rcases List.mem_cons.mp hq with rfl | hq
                · exact ⟨o, ho⟩
                · exact hk q hq
          | throw x => rw [hd] at e; exact absurd e.symm (hR.2 x)
          | ub =>
            rw [hd] at e
            have e : R = .ub := e.symm
            exact absurd ((hbad c k v).mp (hd.trans e.symm)) hb
          | abort =>
            rw [hd] at e
            have e : R = .abort := e.symm
            exact absurd ((hbad c k v).mp (hd.trans e.symm)) hb
        · rintro ⟨kvs, k', v', r, hf, hk, hb'⟩
          match kvs with
          | [] =>
            obtain ⟨rfl, rfl, -⟩ := fields_split hs h1 h2 hf
            exact absurd hb' hb
          | (k1, v1) :: kvs =>
            obtain ⟨rfl, rfl, hf⟩ := fields_split hs h1 h2 hf
            obtain ⟨o, ho⟩ := hk _ List.mem_cons_self
            rw [value_ok ho c k1, Res.ok_bind, if_neg]
            · exact (ih _ _ _ hl2).mpr ⟨kvs, k', v', r, hf, fun q hq => hk q (List.mem_cons_of_mem _ hq), hb'⟩
            · rintro rfl
              match kvs with
              | [] => exact fields_end hf
              | q :: kvs => exact fields_end hf

/-- A container is read exactly from names and values of the grammar, at least one of each and to the last byte. What is
stored are the components of the values, later ones instead of earlier ones with the same name. -/
theorem C148_container (c c' : Container G1 G2 GT) (blob : Bytes) :
    Container.deserialize mk cd c blob = .ok c' ↔
      ∃ kvs, kvs ≠ [] ∧ Fields blob (inTurn kvs) [] ∧ Listed mk cd c kvs c' :=
  loop_ok (blob.length + 1) [] blob c c' (Nat.lt_succ_self _)

/-- Reading a container is undefined exactly if the first value that cannot be stored is an undefined one, and ends the
program exactly if it is one that does. -/
theorem C148_container_undefined (c : Container G1 G2 GT) (blob : Bytes) :
    (Container.deserialize mk cd c blob = .ub ↔
      ∃ kvs k v r, Fields blob (inTurn kvs ++ [k, v]) r ∧ (∀ q ∈ kvs, ∃ o, ValueOf mk cd q.2 o) ∧ UndefinedValue mk cd v) ∧
    (Container.deserialize mk cd c blob = .abort ↔
      ∃ kvs k v r, Fields blob (inTurn kvs ++ [k, v]) r ∧ (∀ q ∈ kvs, ∃ o, ValueOf mk cd q.2 o) ∧ EndValue cd v) :=
  ⟨loop_bad .ub ⟨by simp, by simp⟩ _ (fun c k v => (C148_value v c k).2.1) (blob.length + 1) [] blob c (Nat.lt_succ_self _),
   loop_bad .abort ⟨by simp, by simp⟩ _ (fun c k v => (C148_value v c k).2.2) (blob.length + 1) [] blob c (Nat.lt_succ_self _)⟩

/-- Each value has one meaning. -/
theorem value_unique {v : Bytes} {o o' : Option (Obj G1 G2 GT)} (h : ValueOf mk cd v o) (h' : ValueOf mk cd v o') : o = o' := by
  have := (value_ok h ([] : Container G1 G2 GT) []).symm.trans (value_ok h' [] [])
  cases o <;> cases o' <;> simp [keep, SMap.insert] at this
  · rfl
  · rw [this]

/-! ### Ciphertexts and keys -/

theorem scheme_iff (a alg : UInt8) : getSchemeID a = .ok alg ↔ a ∈ schemeNumbers ∧ alg = a := by
  unfold getSchemeID schemeNumbers
  split
  · rename_i h
    constructor
    · intro e; cases e; exact ⟨h, rfl⟩
    · rintro ⟨-, rfl⟩; rfl
  · rename_i h
    constructor
    · intro e; cases e
    · rintro ⟨h', -⟩; exact absurd h' h

theorem header_split {hdr : Bytes} (h : 18 ≤ hdr.length) : ∃ v a u i, hdr = v :: a :: (u ++ i) ∧ u.length = 16 := by
  match hdr, h with
  | v :: a :: t, h =>
    refine ⟨v, a, t.take 16, t.drop 16, by rw [List.take_append_drop], ?_⟩
    simp only [List.length_cons] at h
    rw [List.length_take]
    omega

theorem subset_uid (v a : UInt8) (u i : Bytes) (hu : u.length = 16) : BS.getSubset (v :: a :: (u ++ i)) 2 uidLen = u := by
  rw [BS.getSubset, if_pos (by simp only [List.length_cons, List.length_append, uidLen]; omega)]
  simp only [List.drop_succ_cons, List.drop_zero]
  rw [List.take_append_of_le_length (by rw [hu]; exact Nat.le_refl _), List.take_of_length_le (by rw [hu]; exact Nat.le_refl _)]

theorem subset_id (v a : UInt8) (u i : Bytes) (hu : u.length = 16) :
    (if uidLen + 2 < (v :: a :: (u ++ i)).length then
      BS.getSubset (v :: a :: (u ++ i)) (uidLen + 2) ((v :: a :: (u ++ i)).length - (uidLen + 2)) else []) = i := by
  have hl : (v :: a :: (u ++ i)).length = 18 + i.length := by
    simp only [List.length_cons, List.length_append]; omega
  rw [hl]
  unfold uidLen
  split
  · rw [BS.getSubset, if_pos (by omega), show (16 + 2 : Nat) = (16 + 1) + 1 from rfl, List.drop_succ_cons, List.drop_succ_cons,
      List.drop_left' hu]
    exact List.take_of_length_le (by omega)
  · exact (List.length_eq_zero_iff.mp (by omega)).symm

theorem new_key (a : UInt8) (u i rnd : Bytes) (hu : u.length = 16) :
    (Key.new a i (some u) rnd : Key G1 G2 GT) = { version := 170, alg := a, uid := u, id := i, comps := [] } := by
  show ({ alg := a, uid := if u.length = uidLen then u else rnd, id := i } : Key G1 G2 GT) = _
  rw [if_pos (show u.length = uidLen from hu)]
  rfl

theorem fields2 (input : Bytes) :
    (∃ x y r i j, BS.smartUnpack input 0 = .ok (x, i) ∧ BS.smartUnpack input i = .ok (y, j) ∧ Fields input [x, y] r) ∨
    (∃ x i, BS.smartUnpack input 0 = .ok (x, i) ∧ BS.smartUnpack input i = .throw .outOfRange ∧ ∀ x y xs r, ¬ Fields input (x :: y :: xs) r) ∨
    (BS.smartUnpack input 0 = .throw .outOfRange ∧ ∀ x xs r, ¬ Fields input (x :: xs) r) := by
  rcases unpack_or input 0 with ⟨⟨x, i⟩, h1⟩ | h1
  rotate_left
  · exact Or.inr (Or.inr ⟨h1, fun x xs r h => no_field (p := []) h1 h⟩)
  obtain ⟨f1, s1, rfl, hf1, rfl⟩ := smartUnpack_iff.mp h1
  rcases unpack_or (f1 ++ s1) f1.length with ⟨⟨y, j⟩, h2⟩ | h2
  · obtain ⟨f2, s2, rfl, hf2, rfl⟩ := smartUnpack_at_iff.mp h2
    exact Or.inl ⟨x, y, s2, _, _, h1, h2, .cons hf1 (.cons hf2 (.nil s2))⟩
  · exact Or.inr (Or.inl ⟨x, _, h1, h2, fun x y xs r h => no_field h2 (fields_peel hf1 h).2⟩)

/-- A ciphertext is read exactly from two fields, and anything behind them: a header of version, scheme and 16 bytes, with
a version of at most 170 and the number of a scheme, and the bytes of a container, which are not empty. -/
theorem C148_ciphertext (ct ct' : Ciphertext G1 G2 GT) (input : Bytes) :
    Ciphertext.load mk cd ct input = .ok ct' ↔
      ∃ v a u body r, Fields input [v :: a :: u, body] r ∧ u.length = 16 ∧ v ≤ 170 ∧ a ∈ schemeNumbers ∧
        Container.deserialize mk cd ct.comps body = .ok ct'.comps ∧ body ≠ [] ∧ ct'.version = v ∧ ct'.alg = a ∧ ct'.uid = u := by
  unfold Ciphertext.load
  simp only
  constructor
  · intro h
    split at h
    · cases h
    rcases fields2 input with ⟨x, y, r, i, j, h1, h2, hf⟩ | ⟨x, i, h1, h2, -⟩ | ⟨h1, -⟩
    · rw [h1, Res.ok_bind] at h
      dsimp only at h
      split at h
      rotate_left
      · cases h
      rename_i hl
      obtain ⟨v, a, u, t, rfl, hu⟩ := header_split (Nat.le_of_eq hl.symm)
      have ht : t = [] := by
        simp only [List.length_cons, List.length_append, uidLen] at hl
        exact List.length_eq_zero_iff.mp (by omega)
      subst ht
      rw [List.append_nil] at *
      obtain ⟨v', hv', h⟩ := (Res.bind_eq_ok _ _ _).mp h
      cases hv'
      split at h
      · cases h
      rename_i hv
      obtain ⟨a', ha', h⟩ := (Res.bind_eq_ok _ _ _).mp h
      cases ha'
      obtain ⟨alg, halg, h⟩ := (Res.bind_eq_ok _ _ _).mp h
      obtain ⟨hs, e⟩ := (scheme_iff _ _).mp halg
      subst e
      rw [h2, Res.ok_bind] at h
      dsimp only at h
      split at h
      · cases h
      rename_i hne
      obtain ⟨comps, hc, h⟩ := (Res.bind_eq_ok _ _ _).mp h
      cases h
      have hsub := subset_uid v alg u [] hu
      rw [List.append_nil] at hsub
      refine ⟨v, alg, u, y, r, hf, hu, UInt8.not_lt.mp hv, hs, hc, fun e => hne (by rw [e]; rfl), rfl, rfl, hsub⟩
    · rw [h1, Res.ok_bind] at h
      dsimp only at h
      split at h
      · obtain ⟨v', -, h⟩ := (Res.bind_eq_ok _ _ _).mp h
        split at h
        · cases h
        obtain ⟨a', -, h⟩ := (Res.bind_eq_ok _ _ _).mp h
        obtain ⟨alg, -, h⟩ := (Res.bind_eq_ok _ _ _).mp h
        rw [h2] at h
        cases h
      · cases h
    · rw [h1] at h
      cases h
  · rintro ⟨v, a, u, body, r, hf, hu, hv, hs, hc, hne, h1, h2, h3⟩
    obtain ⟨f1, s1, rfl, hf1, hs1⟩ := fields_cons_inv hf
    obtain ⟨f2, s2, rfl, hf2, hs2⟩ := fields_cons_inv hs1
    have hlen : ¬ (f1 ++ (f2 ++ s2)).length < uidLen + 2 := by
      have : (v :: a :: u).length ≤ f1.length := by cases hf1 <;> simp only [List.length_cons] <;> omega
      simp only [List.length_cons, List.length_append, uidLen] at *
      omega
    rw [if_neg hlen, smartUnpack_iff.mpr ⟨f1, _, rfl, hf1, rfl⟩, Res.ok_bind]
    dsimp only
    rw [if_pos (by simp only [List.length_cons, uidLen]; omega)]
    have hsub := subset_uid v a u [] hu
    rw [List.append_nil] at hsub
    rw [show BS.atR (v :: a :: u) 0 = .ok v from rfl, Res.ok_bind, if_neg (show ¬ libraryVersion < v from UInt8.not_lt.mpr hv),
      show BS.atR (v :: a :: u) 1 = .ok a from rfl, Res.ok_bind, (scheme_iff a a).mpr ⟨hs, rfl⟩, Res.ok_bind,
      smartUnpack_at_iff.mpr ⟨f2, _, rfl, hf2, rfl⟩, Res.ok_bind]
    dsimp only
    rw [if_neg (fun e => hne (List.length_eq_zero_iff.mp e)), hc, Res.ok_bind, hsub, ← h1, ← h2, ← h3]

theorem unpack_at_iff {p s x : Bytes} {j : Nat} :
    BS.unpack (p ++ s) p.length = .ok (x, j) ↔ ∃ f r, s = f ++ r ∧ Long f x ∧ j = (p ++ f).length := by
  have hsm : ∀ q : Bytes, BS.smartUnpack (0xC3 :: q) 0 = BS.unpack (0xC3 :: q) 1 := fun q => rfl
  have hsh := BS.unpack_shift p s 0
  have hs1 := BS.unpack_shift [0xC3] s 0
  rw [Nat.add_zero] at hsh hs1
  rw [hsh]
  constructor
  · intro h
    obtain ⟨⟨x', i⟩, h1, h2⟩ := (Res.bind_eq_ok _ _ _).mp h
    cases h2
    rw [h1, Res.ok_bind] at hs1
    have h3 := (hsm s).trans hs1
    obtain ⟨f, r, e, hf, hj⟩ := smartUnpack_iff.mp h3
    cases hf with
    | short n y hn => simp at e
    | mid a b y hn => simp at e
    | long a b c d y hn =>
      simp only [List.cons_append, List.cons.injEq, true_and] at e
      refine ⟨_, r, e, ⟨a, b, c, d, rfl, hn⟩, ?_⟩
      simp only [List.length_append, List.length_cons, List.length_nil] at hj ⊢
      omega
    | other t k1 k2 k3 =>
      simp only [List.cons_append, List.cons.injEq] at e
      exact absurd e.1.symm k3
  · rintro ⟨f, r, rfl, ⟨a, b, c, d, rfl, hn⟩, rfl⟩
    have h3 := (smartUnpack_iff (s := 0xC3 :: (a :: b :: c :: d :: x ++ r))).mpr ⟨0xC3 :: a :: b :: c :: d :: x, r, rfl, .long a b c d x hn, rfl⟩
    rw [hsm] at h3
    have h4 := hs1.symm.trans h3
    obtain ⟨⟨x', i⟩, h5, h6⟩ := (Res.bind_eq_ok _ _ _).mp h4
    rw [h5, Res.ok_bind]
    simp only [Res.ok.injEq, Prod.mk.injEq] at h6 ⊢
    refine ⟨h6.1, ?_⟩
    have := h6.2
    simp only [List.length_append, List.length_cons, List.length_nil] at this ⊢
    omega

theorem no_long {p s : Bytes} (h : BS.unpack (p ++ s) p.length = .throw .outOfRange) : ∀ f x r, s = f ++ r → ¬ Long f x := by
  intro f x r e hf
  rw [unpack_at_iff.mpr ⟨f, r, e, hf, rfl⟩] at h
  cases h

theorem long_unique {f f' x x' r r' : Bytes} (h : Long f x) (h' : Long f' x') (e : f ++ r = f' ++ r') : f = f' ∧ x = x' ∧ r = r' := by
  have h1 := (unpack_at_iff (p := [])).mpr ⟨f, r, rfl, h, rfl⟩
  have h2 := (unpack_at_iff (p := [])).mpr ⟨f', r', rfl, h', rfl⟩
  rw [e, h2] at h1
  simp only [Res.ok.injEq, Prod.mk.injEq, List.nil_append] at h1
  have := List.append_inj e h1.2.symm
  exact ⟨this.1, h1.1.symm, this.2⟩

/-- A key is made exactly from two contents with lengths of four bytes, and anything behind them, of which the first is a
header of version, scheme, 16 bytes and the identifier. The version in the bytes is not kept. Whether the second content is
a container is seen later. -/
theorem C148_key (blob rnd : Bytes) (k : Key G1 G2 GT) (body : Bytes) :
    Key.construct blob rnd = .ok (some (k, body)) ↔
      ∃ v a u i f1 f2 r, blob = f1 ++ (f2 ++ r) ∧ Long f1 (v :: a :: (u ++ i)) ∧ Long f2 body ∧ u.length = 16 ∧ v ≤ 170 ∧
        a ∈ schemeNumbers ∧ k = { version := 170, alg := a, uid := u, id := i, comps := [] } := by
  unfold Key.construct
  simp only
  constructor
  · intro h
    split at h
    · cases h
    obtain ⟨⟨hdr, j⟩, h1, h⟩ := (Res.bind_eq_ok _ _ _).mp h
    obtain ⟨f1, s1, rfl, hf1, rfl⟩ := (unpack_at_iff (p := [])).mp h1
    dsimp only at h
    split at h
    rotate_left
    · cases h
    rename_i hl
    obtain ⟨v, a, u, i, rfl, hu⟩ := header_split hl
    rw [show BS.atR (v :: a :: (u ++ i)) 0 = .ok v from rfl, Res.ok_bind] at h
    split at h
    · cases h
    rename_i hv
    rw [show BS.atR (v :: a :: (u ++ i)) 1 = .ok a from rfl, Res.ok_bind] at h
    split at h
    rotate_left
    · cases h
    rename_i alg halg
    obtain ⟨hs, rfl⟩ := (scheme_iff _ _).mp halg
    obtain ⟨⟨b, j⟩, h2, h⟩ := (Res.bind_eq_ok _ _ _).mp h
    obtain ⟨f2, s2, rfl, hf2, rfl⟩ := unpack_at_iff.mp h2
    cases h
    refine ⟨v, alg, u, i, f1, f2, s2, rfl, hf1, hf2, hu, UInt8.not_lt.mp hv, hs, ?_⟩
    rw [subset_uid v alg u i hu, subset_id v alg u i hu, new_key _ _ _ _ hu]
  · rintro ⟨v, a, u, i, f1, f2, r, rfl, hf1, hf2, hu, hv, hs, rfl⟩
    have hlen : ¬ (f1 ++ (f2 ++ r)).length < uidLen + 2 := by
      obtain ⟨a', b', c', d', rfl, -⟩ := hf1
      simp only [List.length_cons, List.length_append, uidLen]
      omega
    have h1 := (unpack_at_iff (p := [])).mpr ⟨f1, f2 ++ r, rfl, hf1, rfl⟩
    rw [if_neg hlen, show BS.unpack (f1 ++ (f2 ++ r)) 0 = _ from h1, Res.ok_bind]
    dsimp only
    rw [if_pos (by simp only [List.length_cons, List.length_append, uidLen]; omega),
      show BS.atR (v :: a :: (u ++ i)) 0 = .ok v from rfl, Res.ok_bind, if_neg (show ¬ libraryVersion < v from UInt8.not_lt.mpr hv),
      show BS.atR (v :: a :: (u ++ i)) 1 = .ok a from rfl, Res.ok_bind, (scheme_iff a a).mpr ⟨hs, rfl⟩]
    dsimp only
    have h2 := (unpack_at_iff (p := f1)).mpr ⟨f2, r, rfl, hf2, rfl⟩
    rw [show List.length ([] ++ f1 : Bytes) = f1.length from rfl, h2, Res.ok_bind,
      subset_uid v a u i hu, subset_id v a u i hu, new_key _ _ _ _ hu]

/-- If the bytes are not those of a key, then `std::out_of_range` is thrown exactly if there are 18 bytes or more and the
first content is missing, or it is a header and the second content is missing. In all other cases there is no key. -/
theorem C148_key_refused (blob rnd : Bytes) :
    ((Key.construct blob rnd : Res (Option (Key G1 G2 GT × Bytes))) = .throw .outOfRange ↔
      18 ≤ blob.length ∧ ((∀ f x r, blob = f ++ r → ¬ Long f x) ∨
        ∃ v a u i f1 s, blob = f1 ++ s ∧ Long f1 (v :: a :: (u ++ i)) ∧ u.length = 16 ∧ v ≤ 170 ∧ a ∈ schemeNumbers ∧
          ∀ f x r, s = f ++ r → ¬ Long f x)) ∧
    ((∃ o, (Key.construct blob rnd : Res (Option (Key G1 G2 GT × Bytes))) = .ok o) ∨
      (Key.construct blob rnd : Res (Option (Key G1 G2 GT × Bytes))) = .throw .outOfRange) := by
  unfold Key.construct
  simp only
  by_cases hlen : blob.length < uidLen + 2
  · rw [if_pos hlen]
    exact ⟨⟨fun h => (by cases h), fun h => absurd h.1 (by unfold uidLen at hlen; omega)⟩, Or.inl ⟨_, rfl⟩⟩
  rw [if_neg hlen]
  have hlen' : 18 ≤ blob.length := by unfold uidLen at hlen; omega
  rcases unpackLong_or blob 0 with ⟨⟨hdr, j⟩, h1⟩ | h1
  rotate_left
  · rw [h1]
    exact ⟨⟨fun _ => ⟨hlen', Or.inl (no_long (p := []) h1)⟩, fun _ => rfl⟩, Or.inr rfl⟩
  rw [h1, Res.ok_bind]
  obtain ⟨f1, s1, rfl, hf1, rfl⟩ := (unpack_at_iff (p := [])).mp h1
  dsimp only
  have key : ∀ {P : Prop}, (∀ f x r, f1 ++ s1 = f ++ r → ¬ Long f x) ∨
        (∃ v a u i f1' s, f1 ++ s1 = f1' ++ s ∧ Long f1' (v :: a :: (u ++ i)) ∧ u.length = 16 ∧ v ≤ 170 ∧ a ∈ schemeNumbers ∧
          ∀ f x r, s = f ++ r → ¬ Long f x) →
      (∀ v a u i, hdr = v :: a :: (u ++ i) → u.length = 16 → v ≤ 170 → a ∈ schemeNumbers →
        (∀ f x r, s1 = f ++ r → ¬ Long f x) → P) → P := by
    intro P h hP
    rcases h with h | ⟨v, a, u, i, f1', s, e, hl, hu, hv, hs, hn⟩
    · exact absurd hf1 (h _ _ _ rfl)
    · obtain ⟨rfl, e2, rfl⟩ := long_unique hf1 hl e
      exact hP v a u i e2 hu hv hs hn
  by_cases hl : uidLen + 2 ≤ hdr.length
  rotate_left
  · rw [if_neg hl]
    refine ⟨⟨fun h => (by cases h), fun h => key h.2 fun v a u i e hu _ _ _ => absurd ?_ hl⟩, Or.inl ⟨_, rfl⟩⟩
    rw [e]
    simp only [List.length_cons, List.length_append, uidLen]
    omega
  rw [if_pos hl]
  obtain ⟨v, a, u, i, rfl, hu⟩ := header_split hl
  rw [show BS.atR (v :: a :: (u ++ i)) 0 = .ok v from rfl, Res.ok_bind]
  by_cases hv : libraryVersion < v
  · rw [if_pos hv]
    refine ⟨⟨fun h => (by cases h), fun h => key h.2 fun v' a' u' i' e _ hv' _ _ => absurd hv' ?_⟩, Or.inl ⟨_, rfl⟩⟩
    cases (List.cons.inj e).1
    exact UInt8.not_le.mpr hv
  rw [if_neg hv, show BS.atR (v :: a :: (u ++ i)) 1 = .ok a from rfl, Res.ok_bind]
  by_cases hs : a ∈ schemeNumbers
  rotate_left
  · have hne : ∀ alg, getSchemeID a ≠ .ok alg := fun alg h => hs ((scheme_iff a alg).mp h).1
    split
    · rename_i alg halg
      exact absurd halg (hne alg)
    · refine ⟨⟨fun h => (by cases h), fun h => key h.2 fun v' a' u' i' e _ _ hs' _ => absurd hs' ?_⟩, Or.inl ⟨_, rfl⟩⟩
      cases (List.cons.inj (List.cons.inj e).2).1
      exact hs
  rw [(scheme_iff a a).mpr ⟨hs, rfl⟩]
  dsimp only
  rw [show List.length ([] ++ f1 : Bytes) = f1.length from rfl]
  rcases unpackLong_or (f1 ++ s1) f1.length with ⟨⟨body, j⟩, h2⟩ | h2
  · rw [h2, Res.ok_bind]
    obtain ⟨f2, s2, rfl, hf2, -⟩ := unpack_at_iff.mp h2
    exact ⟨⟨fun h => (by cases h), fun h => key h.2 fun _ _ _ _ _ _ _ _ hn => absurd hf2 (hn _ _ _ rfl)⟩, Or.inl ⟨_, rfl⟩⟩
  · rw [h2]
    exact ⟨⟨fun _ => ⟨hlen', Or.inr ⟨v, a, u, i, f1, s1, rfl, hf1, hu, UInt8.not_lt.mp hv, hs, no_long h2⟩⟩, fun _ => rfl⟩, Or.inr rfl⟩

/-! ### What is stored under a name -/

theorem fields_unique {b : Bytes} : ∀ {xs ys : List Bytes}, Fields b xs [] → Fields b ys [] → xs = ys := by
  intro xs
  induction xs generalizing b with
  | nil =>
    intro ys h h'
    cases fields_nil_inv h
    cases ys with
    | nil => rfl
    | cons y ys => exact absurd h' fields_end
  | cons x xs ih =>
    intro ys h h'
    obtain ⟨f, s, rfl, hf, hs⟩ := fields_cons_inv h
    cases ys with
    | nil => exact absurd (List.append_eq_nil_iff.mp (fields_nil_inv h')).1 hf.ne_nil
    | cons y ys =>
      obtain ⟨rfl, h2⟩ := fields_peel hf h'
      rw [ih hs h2]

theorem inTurn_inj : ∀ {l m : List (Bytes × Bytes)}, inTurn l = inTurn m → l = m
  | [], [], _ => rfl
  | [], _ :: _, h => by simp [inTurn] at h
  | _ :: _, [], h => by simp [inTurn] at h
  | (a, b) :: l, (c, d) :: m, h => by
    simp only [inTurn, List.flatMap_cons, List.cons_append, List.nil_append, List.cons.injEq] at h
    obtain ⟨rfl, rfl, h⟩ := h
    rw [inTurn_inj h]

theorem listed_app {c c' : Container G1 G2 GT} {l m : List (Bytes × Bytes)} (h : Listed mk cd c (l ++ m) c') :
    ∃ d, Listed mk cd c l d ∧ Listed mk cd d m c' := by
  induction l generalizing c with
  | nil => exact ⟨c, .nil c, h⟩
  | cons p l ih =>
    cases h with
    | cons ho ht =>
      obtain ⟨d, h1, h2⟩ := ih ht
      exact ⟨d, .cons ho h1, h2⟩

theorem listed_same {n : Bytes} {c c' : Container G1 G2 GT} {l : List (Bytes × Bytes)} (h : Listed mk cd c l c')
    (hn : ∀ p ∈ l, p.1 = n → ValueOf mk cd p.2 none) : SMap.find n c' = SMap.find n c := by
  induction h with
  | nil c => rfl
  | cons ho ht ih =>
    rw [ih fun p hp => hn p (List.mem_cons_of_mem _ hp)]
    rename_i k v o l
    cases o with
    | none => rfl
    | some o =>
      show SMap.find n (SMap.insert k o _) = _
      rw [SMap.find_insert]
      by_cases e : n = k
      · subst e
        cases value_unique ho (hn _ (List.mem_cons_self ..) rfl)
      · rw [if_neg e]

/-- After reading, a name has the component of its last value that stores one; if it has no such value, the one it had
before. -/
theorem C148_last {c c' : Container G1 G2 GT} {blob : Bytes} {l m : List (Bytes × Bytes)} {n v : Bytes} {o : Obj G1 G2 GT}
    (h : Container.deserialize mk cd c blob = .ok c') (hb : Fields blob (inTurn (l ++ (n, v) :: m)) []) (hv : ValueOf mk cd v (some o))
    (hm : ∀ p ∈ m, p.1 = n → ValueOf mk cd p.2 none) : SMap.find n c' = some o := by
  obtain ⟨kvs, -, hf, hl⟩ := (C148_container c c' blob).mp h
  have e := inTurn_inj (fields_unique hf hb)
  subst e
  obtain ⟨d, -, h2⟩ := listed_app hl
  cases h2 with
  | cons ho ht =>
    cases value_unique ho hv
    rw [listed_same ht hm]
    show SMap.find n (SMap.insert n o d) = _
    rw [SMap.find_insert, if_pos rfl]

/-- A name without a value that stores a component keeps what it had. -/
theorem C148_kept {c c' : Container G1 G2 GT} {blob : Bytes} {kvs : List (Bytes × Bytes)} {n : Bytes}
    (h : Container.deserialize mk cd c blob = .ok c') (hb : Fields blob (inTurn kvs) [])
    (hm : ∀ p ∈ kvs, p.1 = n → ValueOf mk cd p.2 none) : SMap.find n c' = SMap.find n c := by
  obtain ⟨kvs', -, hf, hl⟩ := (C148_container c c' blob).mp h
  have e := inTurn_inj (fields_unique hf hb)
  subst e
  exact listed_same hl hm

/-! ### Concrete cases -/

namespace Ex

/-- Two values under the name `a`, an exponent and an integer, and an element of the first group under `b`. -/
def pairs : List (Bytes × Bytes) := [([97], [0xB1, 0, 1, 5]), ([98], [0xB2, 0xA1, 1, 0, 9]), ([97], [0xA1, 0, 0, 1, 2])]

/-- Their bytes. -/
def blob : Bytes := [0xA1, 1, 97, 0xA1, 4, 0xB1, 0, 1, 5, 0xA1, 1, 98, 0xA1, 5, 0xB2, 0xA1, 1, 0, 9, 0xA1, 1, 97, 0xA1, 5, 0xA1, 0, 0, 1, 2]

theorem blob_fields : Fields blob (inTurn pairs) [] :=
  .cons (.short 1 [97] rfl) (.cons (.short 4 [0xB1, 0, 1, 5] rfl) (.cons (.short 1 [98] rfl)
    (.cons (.short 5 [0xB2, 0xA1, 1, 0, 9] rfl) (.cons (.short 1 [97] rfl) (.cons (.short 5 [0xA1, 0, 0, 1, 2] rfl) (.nil []))))))

theorem value1 (mk : Mktime) : ValueOf mk ToyCodec.codec [0xB1, 0, 1, 5] (some (.zp 5)) := .zp 0 1 [5] [] rfl (by simp)
theorem value2 (mk : Mktime) : ValueOf mk ToyCodec.codec [0xB2, 0xA1, 1, 0, 9] (some (.g1 none)) :=
  .g1 [0xA1, 1, 0] [0] [9] none (.short 1 [0] rfl) (Or.inl rfl) rfl
theorem value3 (mk : Mktime) : ValueOf mk ToyCodec.codec [0xA1, 0, 0, 1, 2] (some (.int ⟨258, 0⟩)) := .int 0 0 1 2 []

/-- What they are read as. -/
def read : Container (Option UInt8) (Option UInt8) (Option UInt8) := [([97], .int ⟨258, 0⟩), ([98], .g1 none)]

theorem blob_read (mk : Mktime) : Container.deserialize mk ToyCodec.codec [] blob = .ok read :=
  (C148_container _ _ _).mpr ⟨pairs, by simp [pairs], blob_fields,
    .cons (value1 mk) (.cons (value2 mk) (.cons (value3 mk) (by exact .nil _)))⟩

end Ex

-- C148_value: one value of each kind of outcome
example (mk : Mktime) : ValueOf mk ToyCodec.codec [0xB1, 0, 1, 5] (some (.zp 5)) ∧ UndefinedValue mk ToyCodec.codec [0xB1, 0, 3, 7] ∧
    EndValue ToyCodec.codec [0xB2, 0xA1, 3, 0, 0, 0] :=
  ⟨Ex.value1 mk, .zp 0 3 [7] (by simp) (by decide), .size1 [0xA1, 3, 0, 0, 0] [0, 0, 0] [] (.short 3 _ rfl) (by decide) (by decide)⟩

-- C148_container_undefined: a value that is stored, and an undefined one behind it
example (mk : Mktime) : Container.deserialize mk ToyCodec.codec [] [0xA1, 1, 97, 0xA1, 4, 0xB1, 0, 1, 5, 0xA1, 1, 98, 0xA1, 4, 0xB1, 0, 3, 7] = .ub :=
  (C148_container_undefined _ _).1.mpr ⟨[([97], [0xB1, 0, 1, 5])], [98], [0xB1, 0, 3, 7], [],
    .cons (.short 1 [97] rfl) (.cons (.short 4 [0xB1, 0, 1, 5] rfl) (.cons (.short 1 [98] rfl) (.cons (.short 4 [0xB1, 0, 3, 7] rfl) (.nil [])))),
    fun q hq => (by rw [List.mem_singleton.mp hq]; exact ⟨_, Ex.value1 mk⟩), .zp 0 3 [7] (by simp) (by decide)⟩

-- C148_last, C148_kept: the second value of `a` counts, and `c` keeps what it had
example (mk : Mktime) : Container.deserialize mk ToyCodec.codec [] Ex.blob = .ok Ex.read ∧
    Fields Ex.blob (inTurn ([([97], [0xB1, 0, 1, 5]), ([98], [0xB2, 0xA1, 1, 0, 9])] ++ ([97], [0xA1, 0, 0, 1, 2]) :: [])) [] ∧
    ValueOf mk ToyCodec.codec [0xA1, 0, 0, 1, 2] (some (.int ⟨258, 0⟩)) ∧ SMap.find [97] Ex.read = some (.int ⟨258, 0⟩) ∧
    (∀ p ∈ Ex.pairs, p.1 = [99] → ValueOf mk ToyCodec.codec p.2 none) :=
  ⟨Ex.blob_read mk, Ex.blob_fields, Ex.value3 mk, rfl, fun p hp e => by
    simp only [Ex.pairs, List.mem_cons, List.not_mem_nil, or_false] at hp
    rcases hp with rfl | rfl | rfl <;> cases e⟩

-- C148_ciphertext: an old version is kept, and the bytes behind the two fields are ignored
example (mk : Mktime) : ∃ ct', Ciphertext.load mk ToyCodec.codec { version := 170, alg := 0, uid := [], comps := [] }
      ([0xA1, 18, 3, 101, 1, 2, 3, 4, 5, 6, 7, 8, 9, 10, 11, 12, 13, 14, 15, 16] ++ ((0xA1 :: 29 :: Ex.blob) ++ [7, 7])) = .ok ct' ∧
    ct'.version = 3 ∧ ct'.alg = 101 ∧ ct'.comps = Ex.read :=
  ⟨{ version := 3, alg := 101, uid := [1, 2, 3, 4, 5, 6, 7, 8, 9, 10, 11, 12, 13, 14, 15, 16], comps := Ex.read },
    (C148_ciphertext _ _ _).mpr ⟨3, 101, [1, 2, 3, 4, 5, 6, 7, 8, 9, 10, 11, 12, 13, 14, 15, 16], Ex.blob, [7, 7],
      .cons (.short 18 _ rfl) (.cons (.short 29 _ rfl) (.nil _)), rfl, by decide, by decide, Ex.blob_read mk, by decide, rfl, rfl, rfl⟩,
    rfl, rfl, rfl⟩

-- C148_key: the version of the bytes is not kept
example (rnd : Bytes) : (Key.construct ([0, 0, 0, 19, 3, 101, 1, 2, 3, 4, 5, 6, 7, 8, 9, 10, 11, 12, 13, 14, 15, 16, 107] ++ ([0, 0, 0, 1, 9] ++ [7])) rnd :
      Res (Option (Key Unit Unit Unit × Bytes))) =
    .ok (some ({ version := 170, alg := 101, uid := [1, 2, 3, 4, 5, 6, 7, 8, 9, 10, 11, 12, 13, 14, 15, 16], id := [107], comps := [] }, [9])) :=
  (C148_key _ _ _ _).mpr ⟨3, 101, [1, 2, 3, 4, 5, 6, 7, 8, 9, 10, 11, 12, 13, 14, 15, 16], [107], _, _, [7], rfl,
    ⟨0, 0, 0, 19, rfl, rfl⟩, ⟨0, 0, 0, 1, rfl, rfl⟩, rfl, by decide, by decide, rfl⟩

-- C148_key_refused: the header alone
example (rnd : Bytes) : (Key.construct [0, 0, 0, 19, 3, 101, 1, 2, 3, 4, 5, 6, 7, 8, 9, 10, 11, 12, 13, 14, 15, 16, 107] rnd :
      Res (Option (Key Unit Unit Unit × Bytes))) = .throw .outOfRange :=
  (C148_key_refused _ _).1.mpr ⟨by decide, Or.inr ⟨3, 101, [1, 2, 3, 4, 5, 6, 7, 8, 9, 10, 11, 12, 13, 14, 15, 16], [107], _, [],
    (List.append_nil _).symm, ⟨0, 0, 0, 19, rfl, rfl⟩, rfl, by decide, by decide, fun f x r e hf => by
      obtain ⟨a, b, c, d, rfl, -⟩ := hf
      cases e⟩⟩

end Accepted
end Abe
