import Verif.Lemmas.VerboseCDec
import Verif.Props.Safe

/-!
# Decoding with a report

Asking for a report while decoding does not change what is decoded. What is
reported is in `Props.Report`.
-/

namespace Wreport

open Spec

namespace Verbose

variable {σ : Type}

theorem Follow.result {α : Type} {I : Interp σ → Prop} {f : St σ → α} {g : Interp σ → α}
    {r' : Res (St σ)} {r : Res (Interp σ)} (h : Follow I r' r) (hg : ∀ s, f s = g (down s)) :
    (do let s ← r'; return f s) = (do let s ← r; return g s) := by
  cases r' <;> cases r <;> try exact absurd h id
  · obtain ⟨h1, -⟩ := h
    simp only [Res.ok_bind, Res.pure_def]
    rw [hg, h1]
  · have h : _ = _ := h
    rw [h]
    rfl
  · rfl

theorem Follow.keeps {I : Interp σ → Prop} {r' : Res (St σ)} {r : Res (Interp σ)} {s : Interp σ}
    (h : Follow I r' r) (hr : r = .ok s) : I s := by
  subst hr
  cases r' with
  | ok s' => exact h.2
  | err e => exact absurd h id
  | ub => exact absurd h id

end Verbose

open Verbose

/-- A subset and what comes with it are the same with or without a report. -/
theorem verbose_subset (C : Ctx) (X : Verbose.Texts) (hF : Decoder.Fit False C) (add_undef : Bool)
    (depth : Nat) (datadesc : List Varcode) (caches : TableCaches) (hc : caches.Made C.E)
    (i : Input) :
    (do let r ← Verbose.decodeSubset C X add_undef depth datadesc caches i; return r.1) =
        Decoder.decodeSubset C add_undef depth datadesc caches i ∧
      ∀ r, Decoder.decodeSubset C add_undef depth datadesc caches i = .ok r → r.2.1.Made C.E := by
  have hw := (watch hF).run (X := X) depth datadesc
    (up (Decoder.start add_undef caches i) ⟨[], 0, 2⟩)
    ⟨hc, by simp [Decoder.start, Interp.new, up, down], Bitmaps.Within.new⟩
  unfold Verbose.decodeSubset Decoder.decodeSubset
  refine ⟨?_, ?_⟩
  · rw [Res.bind_assoc]
    exact hw.result (f := fun s => (s.tgt.1.out, s.caches, s.tgt.1.input))
      (g := fun s => (s.tgt.out, s.caches, s.tgt.input)) fun s => rfl
  · intro r hr
    obtain ⟨s, h1, h2⟩ := Res.bind_eq_ok.mp hr
    cases h2
    exact (hw.keeps h1).caches

/-- C89 for uncompressed data: decoding with a report has the same outcome as decoding
without it, whatever the data. -/
theorem C89_uncompressed (C : Ctx) (X : Verbose.Texts) (hE : IsRounding C.E.fl)
    (ht : C.btable.Inv C.E) (hO : C.O.Sane C.E) (add_undef : Bool) (depth : Nat)
    (datadesc : List Varcode) (n : Nat) (caches : TableCaches) (hc : caches.Made C.E) (i : Input) :
    (do let r ← Verbose.decodeSubsets C X add_undef depth datadesc n caches i; return r.1) =
      Decoder.decodeSubsets C add_undef depth datadesc n caches i := by
  have hF : Decoder.Fit False C := ⟨hE, ht, hO, False.elim⟩
  induction n generalizing caches i with
  | zero => rfl
  | succ n ih =>
    obtain ⟨h1, h2⟩ := verbose_subset C X hF add_undef depth datadesc caches hc i
    unfold Verbose.decodeSubsets Decoder.decodeSubsets
    rw [← h1]
    rw [← h1] at h2
    cases hr : Verbose.decodeSubset C X add_undef depth datadesc caches i with
    | err e => rfl
    | ub => rfl
    | ok r =>
      rw [hr] at h2
      have hm := h2 r.1 rfl
      simp only [Res.ok_bind, Res.pure_def]
      rw [← ih r.1.2.1 hm r.1.2.2]
      cases Verbose.decodeSubsets C X add_undef depth datadesc n r.1.2.1 r.1.2.2 with
      | err e => rfl
      | ub => rfl
      | ok r' => rfl

/-- C89 for compressed data. -/
theorem C89_compressed (C : Ctx) (X : Verbose.Texts) (hE : IsRounding C.E.fl)
    (ht : C.btable.Inv C.E) (hO : C.O.Sane C.E) (add_undef : Bool) (depth : Nat)
    (datadesc : List Varcode) (n : Nat) (caches : TableCaches) (hc : caches.Made C.E) (i : Input) :
    (do let r ← Verbose.decodeCompressed C X add_undef depth datadesc n caches i; return r.1) =
      CDecoder.decodeSubsets C add_undef depth datadesc n caches i := by
  have hF : Decoder.Fit False C := ⟨hE, ht, hO, False.elim⟩
  have hw := (watchAll hF).run (X := X) depth datadesc
    (up (CDecoder.start add_undef caches n i) ⟨[], 0, 2⟩) (by
      refine ⟨hc, ?_, ⟨0, ?_, Bitmaps.Within.new⟩, ?_⟩
      · intro vs hvs
        rw [show vs = [] from (List.mem_replicate.mp hvs).2]
        exact fun v hv => absurd hv (by simp)
      · intro vs hvs
        rw [show vs = [] from (List.mem_replicate.mp hvs).2]
        rfl
      · rintro (h | h) <;> exact absurd rfl h)
  unfold Verbose.decodeCompressed CDecoder.decodeSubsets
  rw [Res.bind_assoc]
  exact hw.result (f := fun s => (s.tgt.1.subsets, s.caches, s.tgt.1.input))
    (g := fun s => (s.tgt.subsets, s.caches, s.tgt.input)) fun s => rfl

/-- C89 for whole messages. -/
theorem C89_message (load : Header → Res (Ctx × TableCaches))
    (hl : ∀ h C c, load h = .ok (C, c) →
      IsRounding C.E.fl ∧ C.btable.Inv C.E ∧ C.O.Sane C.E ∧ c.Made C.E)
    (X : Verbose.Texts) (add_undef : Bool) (depth : Nat) (data : List Byte) :
    (do let r ← Verbose.decodeMessage load X add_undef depth data
        return (r.1, r.2.1.1, r.2.2)) = decodeMessage load add_undef depth data := by
  unfold Verbose.decodeMessage decodeMessage BufrDec.decode
  cases BufrDec.decode_header data with
  | err e => rfl
  | ub => rfl
  | ok h =>
    simp only [Res.ok_bind]
    cases ht : load h.header with
    | err e => rfl
    | ub => rfl
    | ok t =>
      obtain ⟨a1, a2, a3, a4⟩ := hl _ t.1 t.2 ht
      simp only [Res.ok_bind]
      generalize BufrDec.start data h.secs = i
      generalize BufrDec.obtained h.expected_subsets = n
      unfold Verbose.decodeBody decodeBody
      split
      · rw [← C89_compressed t.1 X a1 a2 a3 add_undef depth h.header.datadesc n t.2 a4 i]
        cases Verbose.decodeCompressed t.1 X add_undef depth h.header.datadesc n t.2 i with
        | err e => rfl
        | ub => rfl
        | ok r =>
          simp only [Res.ok_bind, Res.pure_def]
          cases BufrDec.decode_end data h.secs <;> rfl
      · rw [← C89_uncompressed t.1 X a1 a2 a3 add_undef depth h.header.datadesc n t.2 a4 i]
        cases Verbose.decodeSubsets t.1 X add_undef depth h.header.datadesc n t.2 i with
        | err e => rfl
        | ub => rfl
        | ok r =>
          simp only [Res.ok_bind, Res.pure_def]
          cases BufrDec.decode_end data h.secs <;> rfl

end Wreport
