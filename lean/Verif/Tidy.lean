import Verif.PanicsAgg
import Verif.SpecTable
/-
  Tables with a custom comparison function have values at the entries and nowhere else.
-/
set_option linter.unusedSectionVars false
namespace Addrs
open GoWord LawfulGoWord

namespace Trie
variable {α D : Type} [GoWord α]

theorem Tidy.insert {o : InsertOpts D} {k : Prefix α} {d : Option D} (hd : d.isSome = true) {t t' : Trie α D} (ht : t.Tidy)
    (h : Trie.insert o k d t = some t') : t'.Tidy := by
  induction t generalizing t' with
  | nil =>
    rw [Trie.insert] at h
    split at h
    · cases h
    · cases h; exact ⟨hd, trivial, trivial⟩
  | node p e n hh act l r ihl ihr =>
    rw [Trie.insert] at h
    split at h
    · split at h
      · cases h
      · split at h
        · cases h
        · cases h
          refine ⟨?_, ht.2.1, ht.2.2⟩
          split
          · next hc => rw [Bool.and_eq_true] at hc; exact ht.1.trans hc.1
          · exact hd
    · split at h
      · split at h
        · cases h
        · next r' hr' => cases h; exact ⟨ht.1, ht.2.1, ihr ht.2.2 hr'⟩
      · split at h
        · cases h
        · next l' hl' => cases h; exact ⟨ht.1, ihl ht.2.1 hl', ht.2.2⟩
    · split at h
      · cases h
      · split at h
        · cases h; exact ⟨hd, trivial, ht⟩
        · cases h; exact ⟨hd, ht, trivial⟩
    · split at h
      · cases h
      · simp only at h
        split at h
        · cases h; exact ⟨rfl, ht, hd, trivial, trivial⟩
        · cases h; exact ⟨rfl, ⟨hd, trivial, trivial⟩, ht⟩

theorem Tidy.getOrInsert {k : Prefix α} {d : Option D} (hd : d.isSome = true) {t : Trie α D} (ht : t.Tidy) :
    (Trie.getOrInsert k d t).1.Tidy := by
  induction t with
  | nil => rw [Trie.getOrInsert]; exact ⟨hd, trivial, trivial⟩
  | node p e n hh act l r ihl ihr =>
    have ins : ((Trie.insert ⟨true, false, fun _ _ => false⟩ k d (node p e n hh act l r)).getD (node p e n hh act l r)).Tidy := by
      cases h : Trie.insert ⟨true, false, fun _ _ => false⟩ k d (node p e n hh act l r) with
      | none => exact ht
      | some t' => exact ht.insert hd h
    rw [Trie.getOrInsert]
    simp only
    split
    · exact ins
    · split
      · exact ins
      · split
        · split
          · exact ⟨ht.1, ht.2.1, ihr ht.2.2⟩
          · exact ⟨ht.1, ihl ht.2.1, ht.2.2⟩
        · split
          · exact ins
          · exact ht

theorem Tidy.del {k : Prefix α} {t t' : Trie α D} (ht : t.Tidy) (h : Trie.del k t = some t') : t'.Tidy := by
  induction t generalizing t' with
  | nil => cases h
  | node p e n hh act l r ihl ihr =>
    rw [Trie.del] at h
    split at h
    · split at h
      · cases h; exact ht.2.2
      · split at h
        · cases h; exact ht.2.1
        · cases h; exact ⟨rfl, ht.2.1, ht.2.2⟩
    · split at h
      · split at h
        · cases h
        · next r' hr' =>
          split at h
          · cases h; exact ht.2.1
          · cases h; exact ⟨ht.1, ht.2.1, ihr ht.2.2 hr'⟩
      · split at h
        · cases h
        · next l' hl' =>
          split at h
          · cases h; exact ht.2.2
          · cases h; exact ⟨ht.1, ihl ht.2.1 hl', ht.2.2⟩
    · cases h
    · cases h

theorem Tidy.map {σ : Type} {f : Prefix α → Option D → σ → Option D × σ} (hf : ∀ p d s, (f p d s).1.isSome = true) {eq : Eq' D}
    {t : Trie α D} (ht : t.Tidy) (hs : t.Solid) (s : σ) : (map f eq t s).1.Tidy := by
  induction t generalizing s with
  | nil => trivial
  | node p e n hh act l r ihl ihr =>
    rw [Trie.map]
    refine ⟨?_, ihl ht.2.1 hs.2.1 _, ihr ht.2.2 hs.2.2 _⟩
    split
    · exact ht.1
    · rw [hf, hs.1]

end Trie

namespace Table
variable {α D : Type} [LawfulGoWord α] [Inhabited D]

theorem tidy_step {t : Table α D} (ht : t.trie.Tidy) (o : TableOp α D) : (t.step o).1.trie.Tidy := by
  cases o with
  | insert k v =>
    simp only [step, insert]
    split
    · exact ht
    · next h => exact ht.insert rfl h
  | update k v =>
    simp only [step, update]
    split
    · exact ht
    · next h => exact ht.insert rfl h
  | insertOrUpdate k v =>
    simp only [step, insertOrUpdate]
    split
    · exact ht
    · next h => exact ht.insert rfl h
  | get k => exact ht
  | getOrInsert k v => exact ht.getOrInsert rfl
  | remove k =>
    simp only [step, remove]
    split
    · exact ht
    · next h => exact ht.del h

theorem tidy_map {σ : Type} {t : Table α D} (ht : t.trie.Tidy) (hs : t.trie.Solid) (f : Option (Prefix α → D → σ → D × σ)) (s : σ) :
    (t.map f s).1.trie.Tidy := by
  cases f with
  | none => exact ht
  | some f => exact ht.map (fun _ _ _ => rfl) hs s

end Table
end Addrs
