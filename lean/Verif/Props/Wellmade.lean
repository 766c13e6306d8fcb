import Verif.Lemmas.Wellmade
import Verif.Props.Process
import Verif.Props.Safe

/-! # Whatever a process decodes is well formed -/

namespace Wreport

open Spec

/-- C84 for a process, BUFR: whatever it has done before, whatever the files of tables and
the bytes of the message. -/
theorem C84_process_bufr (S : System) (hE : IsRounding S.E.fl) (ops : List ProcessOp)
    (hq : ∀ op ∈ ops, op.InRange) {O : Opts} (hO : O.Sane S.E) (add_undef : Bool) (depth : Nat)
    (data : List Byte) {r : BufrDec.Head × List (List Var) × List Nat}
    (h : ((Process.after S ops).decodeBufr S O add_undef depth data).2 = .ok r) :
    ∀ vs ∈ r.2.1, ∀ v ∈ vs, v.Sane S.E :=
  Process.decodeBufr_sane (Process.foldl_inv S ops hq _ (Process.fresh_inv S [])) hE hO h

/-- C84 for a process, CREX. -/
theorem C84_process_crex (S : System) (hE : IsRounding S.E.fl) (ops : List ProcessOp)
    (hq : ∀ op ∈ ops, op.InRange) {O : Opts} (hO : O.Sane S.E) (depth fuel : Nat)
    (data : List Byte) {r : Crex.Header × List (List Var)}
    (h : ((Process.after S ops).decodeCrex S O depth fuel data).2 = some (.ok r)) :
    ∀ vs ∈ r.2, ∀ v ∈ vs, v.Sane S.E :=
  Process.decodeCrex_sane (Process.foldl_inv S ops hq _ (Process.fresh_inv S [])) hE hO h

/-- The hypotheses are met. -/
example : IsRounding twoVersions.E.fl ∧ sampleCtx.O.Sane twoVersions.E ∧
    ((Process.after twoVersions someOps).decodeBufr twoVersions sampleCtx.O false 1 narrowMessage).2.isOk := by
  exact ⟨(sampleCtx_fit False).rounding, (sampleCtx_fit False).opts, by decide +kernel⟩

end Wreport
