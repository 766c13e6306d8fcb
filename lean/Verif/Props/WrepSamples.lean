import Verif.Model.Wrep
import Verif.Props.Process

/-!
# Files and tables for samples of `wrep`
-/

namespace Wreport

/-- Two files; the messages for the first version of the table can be decoded, those for the
second cannot. -/
def printerMachine : Wrep.Machine where
  S := twoVersions
  environ := ⟨none, none, ascii "/t"⟩
  O := sampleCtx.O
  depth := 1
  fuel := 50
  inputs := fun f =>
    if f = ascii "a" then some (otherMessage ++ ascii "\r\n" ++ narrowMessage)
    else if f = ascii "b" then some (narrowMessage ++ otherMessage ++ otherMessage.take 20)
    else none
  desc := fun _ _ => ascii "SOMETHING"
  other := fun _ _ _ => []
  help := ascii "help"

/-- A CREX message for a version of the table, with one value. -/
def crexText (version data : String) : List Byte :=
  ascii "CREX++ T0001" ++ ascii version ++ ascii " A004 B12101++ " ++ ascii data ++
    ascii "++\r\r\n7777"

/-- Two files of CREX messages: the first has one whose table is not there and one whose value is
too short between two that can be decoded, the second has only one whose value is too short. -/
def crexMachine : Wrep.Machine where
  S := crexSystem
  environ := ⟨none, none, ascii "/t"⟩
  O := sampleCtx.O
  depth := 1
  fuel := 50
  inputs := fun f =>
    if f = ascii "c" then
      some (crexText "03" "2731" ++ ascii "\r\r\n" ++ crexText "09" "2731" ++ crexText "03" "27" ++
        crexText "03" "2741")
    else if f = ascii "d" then some (crexText "03" "27")
    else none
  desc := fun _ _ => ascii "SOMETHING"
  other := fun _ _ _ => []
  help := ascii "help"

end Wreport
