import Verif.Model.Stream

/-! # Streams of messages -/

namespace Wreport.Spec

/-- A BUFR message whose length field is right: the signature, three bytes of
length, at least five more bytes. -/
def WellFormedBufr (m : List Byte) : Prop :=
  ∃ a b c t, m = ascii "BUFR" ++ ([a, b, c] ++ t) ∧
    a.toNat * 65536 + b.toNat * 256 + c.toNat = m.length ∧ 12 ≤ m.length

/-- Bytes that do not contain `b`. -/
def Free (b : Byte) (s : List Byte) : Prop := ∀ x ∈ s, x ≠ b

/-- A stream made of messages, each after a filler, and a last filler. -/
def stream (parts : List (List Byte × List Byte)) (last : List Byte) : List Byte :=
  parts.flatMap (fun p => p.1 ++ p.2) ++ last

/-- The messages of such a stream with their offsets, from offset `pos` on. -/
def located (pos : Nat) : List (List Byte × List Byte) → List (List Byte × Nat)
  | [] => []
  | p :: t => (p.2, pos + p.1.length) :: located (pos + p.1.length + p.2.length) t

/-- Calling `read` until it says end of file gives these messages. -/
inductive ReadsAll (read : Stream → Res (Option (Stream.Msg × Stream))) :
    Stream → List Stream.Msg → Prop
  | done (s : Stream) : read s = .ok none → ReadsAll read s []
  | more (s s' : Stream) (m : Stream.Msg) (ms : List Stream.Msg) : read s = .ok (some (m, s')) →
      ReadsAll read s' ms → ReadsAll read s (m :: ms)

/-- A CREX end marker: two plus signs, carriage returns and line feeds in any
number, four sevens. -/
def Marker (w : List Byte) : Prop :=
  ∃ n, n ≠ [] ∧ (∀ c ∈ n, c = 10 ∨ c = 13) ∧ w = ascii "++" ++ (n ++ ascii "7777")

end Wreport.Spec
