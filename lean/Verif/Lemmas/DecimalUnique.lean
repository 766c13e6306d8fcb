import Verif.Lemmas.Decimal

/-! # Numbers have one decimal text -/

namespace Wreport

open Spec

theorem Spec.IsDecimalNat.pos {s : List Byte} {n : Nat} (h : IsDecimalNat s n) (hl : 1 < s.length) :
    0 < n := by
  obtain ⟨h0, h1, rfl, h3⟩ := h
  cases s with
  | nil => cases hl
  | cons d t =>
    have hd : d.toNat ≠ 48 := by
      intro hd
      have : d = 48 := UInt8.toNat_inj.mp hd
      subst this
      have := h3 rfl
      omega
    have hd' := h1 d (by simp)
    have mono : ∀ (t : List Byte) (v : Nat), 0 < v →
        0 < t.foldl (fun v b => v * 10 + (b.toNat - 48)) v := by
      intro t
      induction t with
      | nil => exact fun v h => h
      | cons b t ih => exact fun v h => ih _ (by show 0 < v * 10 + (b.toNat - 48); omega)
    exact mono t _ (by show 0 < 0 * 10 + (d.toNat - 48); omega)

theorem Spec.IsDecimalNat.unique {s t : List Byte} {n : Nat} (hs : IsDecimalNat s n)
    (ht : IsDecimalNat t n) : s = t := by
  induction s using List.reverseRecOn generalizing t n with
  | nil => exact absurd rfl hs.1
  | append_singleton s d ih =>
    rcases List.eq_nil_or_concat t with rfl | ⟨t, e, rfl⟩
    · exact absurd rfl ht.1
    rw [List.concat_eq_append] at *
    have val : ∀ (l : List Byte) (b : Byte), digitsValue (l ++ [b]) =
        digitsValue l * 10 + (b.toNat - 48) := by
      intro l b
      simp [digitsValue]
    have hd := hs.2.1 d (by simp)
    have he := ht.2.1 e (by simp)
    have v1 := hs.2.2.1
    have v2 := ht.2.2.1
    rw [val] at v1 v2
    have hde : d = e := UInt8.toNat_inj.mp (by omega)
    have less : ∀ (l : List Byte) (b : Byte), l ≠ [] → IsDecimalNat (l ++ [b]) n →
        IsDecimalNat l (digitsValue l) ∧ 0 < digitsValue l := by
      intro l b hl h
      have hnz : l.head? ≠ some 48 := by
        intro hh
        have := h.2.2.2 (by cases l with | nil => cases hl rfl | cons x l => simpa using hh)
        have : l.length = 0 := by simpa using this
        exact hl (List.length_eq_zero_iff.mp this)
      have hD : IsDecimalNat l (digitsValue l) :=
        ⟨hl, fun x hx => h.2.1 x (by simp [hx]), rfl, fun hh => absurd hh hnz⟩
      refine ⟨hD, ?_⟩
      by_cases h1 : 1 < l.length
      · exact hD.pos h1
      · match l, hl, h1 with
        | [x], _, _ =>
          have hx := h.2.1 x (by simp)
          have : x.toNat ≠ 48 := by
            intro hh
            have : x = 48 := UInt8.toNat_inj.mp hh
            subst this
            exact hnz rfl
          show 0 < 0 * 10 + (x.toNat - 48)
          omega
        | _ :: _ :: _, _, h1 => exact absurd (by simp) h1
    subst hde
    have hv : digitsValue s = digitsValue t := by omega
    rcases Decidable.em (s = []) with rfl | hs0
    · rcases Decidable.em (t = []) with rfl | ht0
      · rfl
      · have := (less t d ht0 ht).2
        have : digitsValue ([] : List Byte) = 0 := rfl
        omega
    · rcases Decidable.em (t = []) with rfl | ht0
      · have := (less s d hs0 hs).2
        have : digitsValue ([] : List Byte) = 0 := rfl
        omega
      · rw [ih (less s d hs0 hs).1 (hv ▸ (less t d ht0 ht).1)]

end Wreport
