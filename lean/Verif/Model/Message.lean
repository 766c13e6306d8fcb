import Verif.Model.Header
import Verif.Model.Compressed

/-!
# Whole messages

Modelled code: `wreport/bufr_encoder.cc` lines 340-417 and `wreport/bufr/decoder.cc`
lines 200-252, with the sections of `Verif.Model.Header` and the data of
`Verif.Model.Targets` and `Verif.Model.Compressed`.
-/

namespace Wreport

/-- `BufrBulletin::encode`, `wreport/bufr_encoder.cc` lines 376-417, whose data
section is written by lines 349-355. `C` holds the tables and `caches` their maps. -/
def encodeMessage (C : Ctx) (depth : Nat) (h : Header) (subsets : List (List Var))
    (caches : TableCaches) : Res (List Byte) :=
  BufrEnc.encode h subsets.length fun o => do
    let r ← DDSEncoder.encodeSubsets C depth h.datadesc subsets caches o
    return r.2

/-- `Decoder::decode_data`, `wreport/bufr/decoder.cc` lines 200-238, on the tables
loaded before. -/
def decodeBody (add_undef : Bool) (depth : Nat) (t : Ctx × TableCaches) (hd : BufrDec.Head)
    (n : Nat) (i : Input) : Res (List (List Var) × Input) :=
  if hd.header.compression then do
    let r ← CDecoder.decodeSubsets t.1 add_undef depth hd.header.datadesc n t.2 i
    return (r.1, r.2.2)
  else do
    let r ← Decoder.decodeSubsets t.1 add_undef depth hd.header.datadesc n t.2 i
    return (r.1, r.2.2)

/-- `BufrBulletin::decode`, `wreport/bufr/decoder.cc` lines 117-252; `load` loads the
tables for a header. -/
def decodeMessage (load : Header → Res (Ctx × TableCaches)) (add_undef : Bool) (depth : Nat)
    (data : List Byte) : Res (BufrDec.Head × List (List Var) × List Nat) :=
  BufrDec.decode load (decodeBody add_undef depth) data

end Wreport
