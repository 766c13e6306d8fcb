import Verif.Props.HeaderOctets
import Verif.Props.ImportTable
import Verif.Props.Trailing

/-!
# Where the checks of sections and the lengths of sections end

C29 for lists of descriptors too long for their section, C31 for messages that are read
beyond their end before the end marker is looked for, C114 for an empty list.
-/

namespace Wreport

open Spec BufrDec

theorem ofBe_short (l : List Byte) (h : l.length ≤ 3) : ofBe l < 2 ^ 24 := by
  have h2 : ∀ l : List Byte, ofBe l < 256 ^ l.length := ofBe_lt
  exact lt_of_lt_of_le (h2 l) (le_trans (Nat.pow_le_pow_right (by norm_num) h) (by norm_num))

/-- No decoded message has 2^23 descriptors. -/
theorem descriptors_short {data : List Byte} {hd : Head} (h : decode_header data = .ok hd) :
    hd.header.datadesc.length < 2 ^ 23 := by
  have h := (C87_header data hd).mp h
  have h1 := h.located.sec3.size
  have h2 := ofBe_short ((data.drop hd.secs.s3).take 3) (by simp)
  rw [h.descriptors, List.length_map, List.length_range]
  omega

/-- A header with 2^23 descriptors. -/
def manyDescriptors : Header := { sampleHeader with datadesc := List.replicate (2 ^ 23) 0 }

/-- C29 fails for lists of descriptors for which three octets cannot tell the length of section
3: the message is made, and is not decoded to that list. -/
theorem C29_not_long : ∃ msg, BufrEnc.encode manyDescriptors 2 sampleBody = .ok msg ∧
    ∀ r, decode_header msg = .ok r → r.header.datadesc ≠ manyDescriptors.datadesc := by
  have hd : manyDescriptors.datadesc.length = 2 ^ 23 := by
    simp only [manyDescriptors, List.length_replicate]
  have hd' : manyDescriptors.datadesc ≠ [] := by
    intro h; rw [h] at hd; simp at hd
  obtain ⟨ob, e, w, -⟩ := BitOut.add_bits_ok
    (BitOut.WF_new (BufrEnc.head manyDescriptors 2 ++ [0, 0, 0, 0])) 19 (n := 5) (by omega) (by omega)
  obtain ⟨msg, he⟩ := BufrEnc.encode_isOk (h := manyDescriptors) (n := 2) (body := sampleBody)
    (.inr (.inr rfl)) (by omega) hd' e w
  refine ⟨msg, he, fun r hr heq => ?_⟩
  have := descriptors_short hr
  rw [heq, hd] at this
  exact absurd this (lt_irrefl _)

/-- A message that is cut inside section 4, with a length of three octets for it. -/
def cutMessage : Res (List Byte) := do
  let m ← messageOf [WR_VAR 0 2 1] []
  return m.take 46 ++ [0, 0, 3]

/-- C31 fails for a message that ends with a section 4 shorter than its own header: no end
marker follows, and instead of a parse error data is read beyond the end of the message. -/
theorem C31_not_parse_error :
    (do let hd ← decode_header (← cutMessage); return (hd.secs.s4, hd.secs.s5)) = Res.ok (46, 49) ∧
    (do return (← cutMessage).length) = Res.ok 49 ∧
    (do firstValues (← cutMessage)) = .ub := by
  decide +kernel

/-- The condition of C114: from an empty list an empty file is written, which is refused. -/
theorem C114_empty : Import.dFile [] = [] ∧ DTable.load [] = .err .parse := by
  decide +kernel

end Wreport
