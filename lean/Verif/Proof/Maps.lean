import Verif.Base
import Mathlib.Data.List.Perm.Basic
/-! Filling an ordered map from a list of rows. -/
set_option linter.unusedSimpArgs false
set_option autoImplicit false
namespace Abe.SMap
variable {α : Type _}

/-- Insert rows one after the other. -/
def addRows (m : SMap α) : List (Bytes × α) → SMap α
  | [] => m
  | (k, v) :: l => addRows (m.insert k v) l

theorem sorted_addRows (l : List (Bytes × α)) : ∀ m : SMap α, Sorted m → Sorted (addRows m l) := by
  induction l with
  | nil => intro m h; exact h
  | cons p l ih => intro m h; exact ih _ (sorted_insert h)

theorem addRows_append (m : SMap α) (a b : List (Bytes × α)) :
    addRows m (a ++ b) = addRows (addRows m a) b := by
  induction a generalizing m with
  | nil => rfl
  | cons p a ih => exact ih _

theorem find_addRows_not_mem (l : List (Bytes × α)) : ∀ (m : SMap α) k,
    k ∉ l.map Prod.fst → find k (addRows m l) = find k m := by
  induction l with
  | nil => intros; rfl
  | cons p l ih =>
    intro m k hk
    obtain ⟨k', v⟩ := p
    simp only [List.map_cons, List.mem_cons, not_or] at hk
    simp only [addRows]
    rw [ih _ _ hk.2, find_insert, if_neg hk.1]

theorem find_addRows_mem (l : List (Bytes × α)) : ∀ (m : SMap α) k v,
    (l.map Prod.fst).Nodup → (k, v) ∈ l → find k (addRows m l) = some v := by
  induction l with
  | nil => intro m k v _ h; simp at h
  | cons p l ih =>
    intro m k v hn h
    obtain ⟨k', v'⟩ := p
    simp only [List.map_cons, List.nodup_cons] at hn
    rcases List.mem_cons.mp h with h | h
    · simp only [Prod.mk.injEq] at h
      obtain ⟨rfl, rfl⟩ := h
      simp only [addRows]
      rw [find_addRows_not_mem _ _ _ hn.1, find_insert, if_pos rfl]
    · exact ih _ k v hn.2 h

theorem perm_insert {k : Bytes} {v : α} {m : SMap α} (h : k ∉ m.map Prod.fst) :
    (insert k v m).Perm ((k, v) :: m) := by
  induction m with
  | nil => simp [insert]
  | cons q m ih =>
    obtain ⟨k', v'⟩ := q
    simp only [List.map_cons, List.mem_cons, not_or] at h
    simp only [insert]
    split
    · rfl
    · rw [if_neg h.1]
      exact ((ih h.2).cons _).trans (List.Perm.swap _ _ _)

theorem perm_addRows (l : List (Bytes × α)) : ∀ m : SMap α,
    (l.map Prod.fst ++ m.map Prod.fst).Nodup → (addRows m l).Perm (l ++ m) := by
  induction l with
  | nil => intros; rfl
  | cons p l ih =>
    intro m hn
    obtain ⟨k, v⟩ := p
    simp only [List.map_cons, List.cons_append, List.nodup_cons, List.mem_append, not_or] at hn
    have hp : (insert k v m).Perm ((k, v) :: m) := perm_insert hn.1.2
    simp only [addRows]
    refine (ih _ ?_).trans ?_
    · have : (l.map Prod.fst ++ (insert k v m).map Prod.fst).Perm
          (k :: (l.map Prod.fst ++ m.map Prod.fst)) :=
        (List.Perm.append_left _ (hp.map Prod.fst)).trans List.perm_middle
      rw [this.nodup_iff, List.nodup_cons]
      exact ⟨by simp [hn.1], hn.2⟩
    · exact (List.Perm.append_left _ hp).trans List.perm_middle

theorem mem_addRows (l : List (Bytes × α)) : ∀ (m : SMap α) p, p ∈ addRows m l → p ∈ l ∨ p ∈ m := by
  induction l with
  | nil => intro m p h; exact .inr h
  | cons q l ih =>
    intro m p h
    rcases ih _ p h with h | h
    · exact .inl (List.mem_cons_of_mem _ h)
    · rcases mem_insert' h with h | h
      · exact .inl (by simp [h])
      · exact .inr h

theorem nodup_keys {m : SMap α} (h : Sorted m) : (m.map Prod.fst).Nodup := by
  induction m with
  | nil => simp
  | cons q m ih =>
    obtain ⟨k, v⟩ := q
    simp only [List.map_cons, List.nodup_cons]
    refine ⟨?_, ih h.2⟩
    intro hk
    obtain ⟨p, hp, he⟩ := List.mem_map.mp hk
    exact blt_ne (h.1 p hp) he.symm

end Abe.SMap
