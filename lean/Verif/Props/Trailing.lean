import Verif.Lemmas.Trailing
import Verif.Lemmas.CrexTrailing
import Verif.Lemmas.Crex
import Verif.Props.Data
import Verif.Props.CrexMessage

/-! # What follows a message, and how it ends: C95, C96 -/

namespace Wreport

open Spec BufrDec

/-- C95 for the header: it is read the same whatever follows. -/
theorem C95_header (data more : List Byte) {hd : Head} (h : decode_header data = .ok hd) :
    decode_header (data ++ more) = .ok hd :=
  (decode_header_grows (List.prefix_append _ _) h).1

/-- C95 for whole messages, compressed or not, if the values that are decoded are in
the message. Missing: messages too short for their descriptors, for which it is false. -/
theorem C95_message_partial (load : Header → Res (Ctx × TableCaches)) (add_undef : Bool) (depth : Nat)
    (data more : List Byte) {r : Head × List (List Var) × List Nat}
    (h : decodeMessage load add_undef depth data = .ok r)
    (hin : ∀ t b j, load r.1.header = .ok t →
      decodeBody add_undef depth t r.1 (obtained r.1.expected_subsets) (start data r.1.secs) =
        .ok (b, j) → j.s4_cursor ≤ data.length) :
    decodeMessage load add_undef depth (data ++ more) = .ok r := by
  by_cases hm : more = []
  · rw [hm, List.append_nil]
    exact h
  have hp : data <+: data ++ more := List.prefix_append _ _
  unfold decodeMessage BufrDec.decode at h ⊢
  obtain ⟨hd, h1, h⟩ := Res.bind_eq_ok.mp h
  obtain ⟨t, h2, h⟩ := Res.bind_eq_ok.mp h
  obtain ⟨⟨b, j⟩, h3, h⟩ := Res.bind_eq_ok.mp h
  obtain ⟨e, h4, h⟩ := Res.bind_eq_ok.mp h
  cases h
  have hj := hin t b j h2 h3
  have hlt : 0 < more.length := List.length_pos_of_ne_nil hm
  obtain ⟨-, -, h5⟩ := decodeBody_local add_undef depth t hd (obtained hd.expected_subsets)
    (start data hd.secs) b j h3
  have h6 := h5 data (data ++ more) (List.prefix_refl _) hp
    ⟨hj, by rw [List.length_append]; omega⟩
  rw [C95_header data more h1, Res.ok_bind, h2, Res.ok_bind,
    show start (data ++ more) hd.secs = (start data hd.secs).within (data ++ more) from rfl, h6,
    Res.ok_bind, (decode_end_grows hp h4).1]
  rfl

/-- A message of one subset with the given descriptors and octets of data. -/
def messageOf (datadesc : List Varcode) (body : List Nat) : Res (List Byte) :=
  BufrEnc.encode { sampleHeader with datadesc } 1 fun o =>
    body.foldlM (fun o b => o.add_bits b 8) o

/-- The values of the first subset of a message. -/
def firstValues (data : List Byte) : Res (List (Option Value)) := do
  let r ← decodeMessage (fun _ => .ok (sampleCtx, noCaches)) false 1 data
  return (r.2.1.headD []).map (·.toVarCore.view)

/-- The place in a message up to which data is read, and the length of the message. -/
def readTo (data : List Byte) : Res (Nat × Nat) := do
  let hd ← decode_header data
  let r ← decodeBody false 1 (sampleCtx, noCaches) hd (obtained hd.expected_subsets) (start data hd.secs)
  return (r.2.s4_cursor, data.length)

/-- The hypotheses of C95 are met: of a message of 56 octets data is read up to octet
52. With something after it the values are the same. -/
example : (do readTo (← messageOf [WR_VAR 0 12 101] [0x6a, 0xb3])) = .ok (52, 56) ∧
    (do firstValues (← messageOf [WR_VAR 0 12 101] [0x6a, 0xb3])) = .ok [some (.num 27315)] ∧
    (do firstValues ((← messageOf [WR_VAR 0 12 101] [0x6a, 0xb3]) ++ [1, 2, 3])) =
      .ok [some (.num 27315)] := by
  decide +kernel

/-- C95 is false in the code: a message without data is decoded with its end section
for data. The last bits come from the NUL after the buffer, or from what follows. -/
theorem C95_not_overrun :
    (do firstValues (← messageOf [WR_VAR 0 2 1, WR_VAR 0 12 101, WR_VAR 0 12 101] [])) =
      .ok [some (.num 0), some (.num 56540), some (.num 56540)] ∧
    (do firstValues ((← messageOf [WR_VAR 0 2 1, WR_VAR 0 12 101, WR_VAR 0 12 101] []) ++ [0x40])) =
      .ok [some (.num 0), some (.num 56540), some (.num 56541)] := by
  decide +kernel

/-- C95 for CREX messages: whatever follows the end of the message. -/
theorem C95_crex (load : Crex.Header → Res (Ctx × TableCaches)) (depth fuel : Nat)
    (data more : List Byte) {r : Crex.Header × List (List Var)}
    (h : Crex.Decoder.decode load depth fuel data = some (.ok r)) :
    Crex.Decoder.decode load depth fuel (data ++ more) = some (.ok r) :=
  Crex.Decoder.decode_more load depth fuel data h more

/-- What a CREX message is decoded to. -/
def crexValues (data : List Byte) : Option (Res (List (List (Option Value)))) :=
  (Crex.Decoder.decode (fun _ => .ok (Crex.crexCtx, noCaches)) 1 100 data).map fun r => do
    let r ← r
    return r.2.map (·.map (·.toVarCore.view))

/-- The hypothesis of C95 is met by a message with a number last. -/
example : crexValues (ascii "CREX++\r\r\nT000103 A004 B02001 B12101++\r\r\n1 27315++\r\r\n7777") =
      some (.ok [[some (.num 1), some (.num 27315)]]) ∧
    crexValues (ascii "CREX++\r\r\nT000103 A004 B02001 B12101++\r\r\n1 27315++\r\r\n777788 7777") =
      some (.ok [[some (.num 1), some (.num 27315)]]) := by
  decide +kernel

/-! ## C96 -/

/-- C96 for messages without an optional section: after the data, and spaces, there must
be `7777`. Missing: messages with an optional section. -/
theorem C96_plain_partial (i : Crex.In) (h : ¬ ascii "SUPP" <+: i.rem.dropWhile isSpace) :
    Crex.Decoder.decodeEnd i = .ok () ↔ ascii "7777" <+: i.rem.dropWhile isSpace := by
  have hp : ∀ w : List Byte, w.length = 4 → (i.skip_spaces.rem.take 4 = w ↔
      w <+: i.rem.dropWhile isSpace) := by
    intro w hw
    rw [Crex.In.rem_skip, List.prefix_iff_eq_take, hw, eq_comm]
  rw [Crex.Decoder.decodeEnd_plain (mt (hp _ rfl).mp h), hp _ rfl]

/-- C96 is false in the code, for every message with an optional section: it is looked
for up to the `++` that ends it, which is not skipped, and `7777` is expected there. -/
theorem C96_not_optional (i : Crex.In) (h : ascii "SUPP" <+: i.rem.dropWhile isSpace) :
    Crex.Decoder.decodeEnd i ≠ .ok () := by
  have := Crex.Decoder.decodeEnd_supp (i := i) (by
    rw [Crex.In.rem_skip]
    exact (List.prefix_iff_eq_take.mp h).symm)
  intro hd
  rw [hd] at this
  cases this

/-- The hypotheses of C96 are met, and so they are in a whole message: with the optional
section it is refused. -/
example : crexValues (ascii "CREX++\r\r\nT000103 A004 B02001 B12101++\r\r\n1 27315++\r\r\n" ++
      ascii "7777") = some (.ok [[some (.num 1), some (.num 27315)]]) ∧
    crexValues (ascii "CREX++\r\r\nT000103 A004 B02001 B12101++\r\r\n1 27315++\r\r\n" ++
      ascii "SUPP\r\r\nNIL++\r\r\n7777") = some (.err .parse) := by
  decide +kernel

end Wreport
