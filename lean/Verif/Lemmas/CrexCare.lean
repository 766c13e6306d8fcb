import Verif.Lemmas.DecoderCare
import Verif.Props.Crex

/-! # What decoding a CREX message keeps true -/

namespace Wreport.Crex

open Spec

variable {safe : Prop} {l : Bounds}

namespace In

theorem peek_safe {i : In} {k : Nat} (h : i.cur + k ≤ i.data.length) : i.peek k ≠ .ub := by
  unfold peek
  split
  · simp
  · split
    · simp
    · omega

theorem parse_value_safe {i : In} (n : Nat) (sg : Bool) (h : InText i) :
    (i.parse_value n sg).Has safe (fun r => InText r.2.2) := by
  refine Res.Has.of (fun r hr => (parse_value_onward hr h).1) fun _ => ?_
  refine Res.Has.not_ub (safe := True) (P := fun _ => True) ?_ trivial
  unfold parse_value
  refine Res.Has.bind (P := fun _ => i.cur + (n + 2) ≤ i.data.length) ?_ fun _ _ ha => ?_
  · unfold check_available_data
    split
    · trivial
    · show _ ≤ _
      omega
  · refine Res.Has.bind (P := fun j => j.cur ≤ j.data.length) ?_ fun j _ hj => ?_
    · refine Res.Has.of (fun j hj => ?_) fun _ => ?_
      · obtain ⟨h1, h2, h3⟩ := checkDigit_onward hj
        rw [h1]
        omega
      · unfold checkDigit
        split
        · refine Res.Has.not_ub (safe := True) (P := fun _ => True) ?_ trivial
          refine Res.Has.bind (Res.Has.trivial' fun _ => peek_safe (by omega)) fun c _ _ => ?_
          split <;> trivial
        · simp
    · exact Res.Has.bind (Res.Has.trivial' fun _ => peek_safe (by omega)) fun c _ _ => trivial

end In

namespace Decoder

/-- What holds while decoding a subset. -/
structure Kept (safe : Prop) (E : Env) (l : Bounds) (s : St) : Prop where
  caches : s.caches.Made E
  out : ∀ v ∈ s.tgt.out, v.Sane E
  text : InText s.tgt.input
  mode : safe → Mode.Mild l s
  current : s.bitmaps.current = none
  last : s.bitmaps.last = none

variable {C : Ctx} {s : St} (hF : Wreport.Decoder.Fit safe C)

include hF

theorem setValue_sane {i : Varinfo} (hi : i.Made C.E) (a v : List Byte) :
    (setValue C.O i a v).1.Sane C.E ∧ (setValue C.O i a v).2.Has safe (fun n => n < 2 ^ 32) := by
  unfold setValue
  split
  · next ht =>
    obtain ⟨h1, h2, -⟩ := assign_c_sane (v := Var.new i) (Var.Sane.new hi) ht
      (v.takeWhile (· ≠ 0)) i.len
    have hc : (Var.new i).setc C.O (c_str (v.takeWhile (· ≠ 0))) =
        (Var.new i).assign_c_checked (c_str (v.takeWhile (· ≠ 0))) i.len := by
      unfold Var.setc
      simp only [Var.new, ht]
    simp only [hc]
    rw [h1]
    exact ⟨h2, (by decide : 4294967295 < 2 ^ 32)⟩
  · obtain ⟨h1, -⟩ := seti_sane hF.opts (Var.Sane.new hi) (wrapInt (strtol a))
    refine ⟨h1, ?_⟩
    refine Res.Has.bind (P := fun _ => True) (Res.Has.trivial' fun hs => seti_safe (hF.calm hs) _) ?_
    intro _ _ _
    exact Wreport.Decoder.toU32_lt _

theorem read_variable_has (h : Kept safe C.E l s) {i : Varinfo} (hi : i.Made C.E) :
    (read_variable C s i).Has safe (fun r => r.1 < 2 ^ 32 ∧ Kept safe C.E l r.2) := by
  unfold read_variable
  refine Res.Has.bind (In.parse_value_safe i.len _ h.text) fun r _ hr => ?_
  have hv : ∀ v : Var × Res Nat, v.1.Sane C.E → v.2.Has safe (fun n => n < 2 ^ 32) →
      (v.2 >>= fun res => v.1.copy >>= fun w =>
        pure (res, { s with tgt := ⟨r.2.2, s.tgt.out ++ [w]⟩ })).Has safe
        (fun r => r.1 < 2 ^ 32 ∧ Kept safe C.E l r.2) := by
    intro v h1 h2
    refine Res.Has.bind h2 fun n _ hn => ?_
    obtain ⟨w, w1, w2, -⟩ := copy_sane h1
    rw [w1, Res.ok_bind]
    refine ⟨hn, ⟨h.caches, ?_, hr, fun hs => { h.mode hs with }, h.current, h.last⟩⟩
    intro x hx
    rcases List.mem_append.mp hx with hx | hx
    · exact h.out x hx
    · rw [List.mem_singleton.mp hx]; exact w2
  simp only []
  split
  · exact hv _ (Var.Sane.new hi) (by decide : 4294967295 < 2 ^ 32)
  · exact hv _ (setValue_sane hF hi _ _).1 (setValue_sane hF hi _ _).2

/-- Descriptors that have only mild ones among them. -/
def MildBelow (C : Ctx) (l : Bounds) (c : Varcode) : Prop :=
  ∀ d, StandsFor C.dtable [c] d → Mild C.E l C.btable d

omit hF in
theorem MildBelow.self {c : Varcode} (h : MildBelow C l c) : Mild C.E l C.btable c :=
  h c (.here (by simp))

omit hF in
theorem MildBelow.leaf {c : Varcode} (h : Mild C.E l C.btable c) (hf : WR_VAR_F c ≠ 3) :
    MildBelow C l c := by
  intro d hd
  have : d = c := by
    induction hd with
    | here h => simpa using h
    | inside _ f _ _ ih => rw [ih] at f; exact absurd f hf
  rw [this]
  exact h

omit hF in
theorem simple_has (h : Kept safe C.E l s) {c : Varcode}
    (hm : safe → MildOperator l (WR_VAR_X c) (WR_VAR_Y c)) :
    (Interp.c_simple (target C) s c).Has safe (Kept safe C.E l) := by
  have hy : WR_VAR_Y c < 256 := Nat.mod_lt _ (by decide)
  have keep : ∀ s' : St, s'.caches = s.caches → s'.tgt = s.tgt →
      s'.bitmaps.current = none → s'.bitmaps.last = none →
      (safe → Mode.Mild l s') → Kept safe C.E l s' := by
    intro s' h1 h2 h3 h4 h5
    exact ⟨by rw [h1]; exact h.caches, by rw [h2]; exact h.out, by rw [h2]; exact h.text, h5, h3, h4⟩
  unfold MildOperator at hm
  unfold Interp.c_simple
  simp only []
  split <;> rename_i hx <;> (try simp only [hx] at hm)
  · exact keep _ rfl rfl h.current h.last fun hs => { h.mode hs with
      width := Wreport.Decoder.change_bounds (hm hs) }
  · refine keep _ rfl rfl h.current h.last fun hs => { h.mode hs with scale := ?_ }
    show -128 ≤ Interp.change _ ∧ Interp.change _ ≤ 127
    unfold Interp.change
    split <;> omega
  · exact keep _ rfl rfl h.current h.last fun hs => { h.mode hs with }
  · trivial
  · refine keep _ rfl rfl h.current h.last fun hs => { h.mode hs with power := ?_ }
    have := hm hs
    constructor
    · exact Int.natCast_nonneg _
    · exact Int.ofNat_le.mpr this
  · refine keep _ rfl rfl h.current h.last fun hs => { h.mode hs with chars := ?_ }
    constructor
    · exact Int.natCast_nonneg _
    · show ((WR_VAR_Y c : Nat) : Int) ≤ 255
      omega
  · split
    · trivial
    · exact keep _ rfl rfl h.current h.last fun hs => { h.mode hs with }
  · unfold Interp.c23
    split
    · exact keep _ rfl rfl h.current h.last fun hs => { h.mode hs with }
    · split
      · split
        · trivial
        · next ha =>
          exfalso
          apply ha
          simp [Bitmaps.active, h.current]
      · trivial
  · unfold Interp.c37
    split
    · refine keep _ rfl rfl ?_ rfl fun hs => { h.mode hs with }
      show s.bitmaps.reuse_last.current = none
      unfold Bitmaps.reuse_last
      rw [h.last]
      rfl
    · split
      · exact keep _ rfl rfl h.current rfl fun hs => { h.mode hs with }
      · trivial
  · exact h

/-- The decoder keeps what it should. -/
theorem care (hl : safe → l.Fair)
    (h12 : safe → Mild C.E l C.btable (WR_VAR 0 31 12))
    (h21 : safe → Mild C.E l C.btable (WR_VAR 0 31 21)) :
    Care safe C (target C) (fun _ => Kept safe C.E l) 0 (Handy safe C.E l.room)
      (fun c => safe → MildBelow C l c) where
  mono b k s h := h
  query c hc := Vartable.query_has (l := l) hF.table fun hs i hi =>
    ⟨(hc hs).self.1 i hi, by unfold Bounds.room; omega⟩
  contains c _ := Vartable.contains_safe _ _
  sequence c hc hf := by
    refine Res.Has.of (fun seq hseq x hx hs d hd => ?_) fun _ => DTable.query_safe _ _
    refine hc hs d ?_
    have : StandsFor C.dtable seq d := by
      induction hd with
      | here h => rw [List.mem_singleton.mp h]; exact .here hx
      | inside _ f q m ih => exact .inside ih f q m
    exact Wreport.Decoder.StandsFor.trans this (by simp) hf hseq
  factorCode hs := .leaf (h12 hs) (by decide)
  meaningCode hs := .leaf (h21 hs) (by decide)
  info b s c hc h := get_varinfo_has hF.table hl h.mode fun hs => (hc hs).self.1
  unknown b s c n h h0 h256 := by
    obtain ⟨h1, h2⟩ := h.caches.get_unknown (safe := safe) c n
    refine h1.mono fun i hi => ⟨⟨hi.1, fun _ => ?_, fun _ hn => ?_⟩,
      ⟨h2, h.out, h.text, fun hs => { h.mode hs with }, h.current, h.last⟩⟩
    · rw [hi.2.2]
      unfold Bounds.room
      omega
    · exact absurd hn (binary_not_num hi.2.1)
  bitmap b s n _ hp h := trivial
  element b s i hi h :=
    Res.Has.bind (read_variable_has hF h hi.made) fun r _ hr => hr.2
  associated b s i hi hb h := trivial
  factor b s i hi h := read_variable_has hF h hi.made
  bitmapFactor b s i hi hp h := trivial
  field b s c hc hf hx hy h :=
    ⟨h.caches, h.out, h.text, fun hs => { h.mode hs with }, h.current, h.last⟩
  meaning b s i hi h := trivial
  attr b s i hi ha h := by
    simp [Bitmaps.active, h.current] at ha
  refval b s c _ h := trivial
  simple b s c hc hf _ _ h := simple_has h fun hs => (hc hs).self.2 hf

omit hF in
theorem subsetEnd_has {i : In} (h : InText i) : (subsetEnd i).Has safe (fun r => InText r.2) := by
  refine Res.Has.of (fun r hr => (subsetEnd_onward hr h).1) fun _ => ?_
  refine Res.Has.not_ub (safe := True) (P := fun _ => True) ?_ trivial
  unfold subsetEnd
  have eof : ∀ j : In, j.check_eof.Has True (fun _ => j.cur < j.data.length) := by
    intro j
    unfold In.check_eof
    split
    · trivial
    · show _ < _
      omega
  refine Res.Has.bind (eof _) fun _ _ h1 => ?_
  refine Res.Has.bind (Res.Has.trivial' fun _ => In.peek_safe (by omega)) fun c _ _ => ?_
  split
  · trivial
  · refine Res.Has.bind (eof _) fun _ _ h2 => ?_
    refine Res.Has.bind (Res.Has.trivial' fun _ => In.peek_safe (by omega)) fun c _ _ => ?_
    split <;> trivial

/-- Decoding a subset. -/
theorem decodeSubset_has (hl : safe → l.Fair)
    (h12 : safe → Mild C.E l C.btable (WR_VAR 0 31 12))
    (h21 : safe → Mild C.E l C.btable (WR_VAR 0 31 21)) {ops : List Varcode} {depth : Nat}
    (ho : safe → ∀ c, StandsFor C.dtable ops c → Mild C.E l C.btable c)
    (hd : safe → NestedWithin C.dtable depth ops) (caches : TableCaches) (i : In)
    (hc : caches.Made C.E) (hi : InText i) :
    (decodeSubset C depth ops caches i).Has safe (fun r =>
        (∀ v ∈ r.1, v.Sane C.E) ∧ r.2.1.Made C.E ∧ InText r.2.2.2) := by
  obtain ⟨K, hK⟩ := (care hF hl h12 h21).run depth ops (fun c hc hs d hdd => ho hs d (by
    induction hdd with
    | here h => rw [List.mem_singleton.mp h]; exact .here hc
    | inside _ f q m ih => exact .inside ih f q m)) hd
  unfold decodeSubset
  refine Res.Has.bind (hK 0 (.new caches ⟨i, []⟩)
    ⟨hc, by simp [Interp.new], hi, fun _ => ?_, rfl, rfl⟩) fun s' _ hs' => ?_
  · refine ⟨?_, ?_, ?_, ?_, ?_⟩ <;> simp [Interp.new]
  · refine Res.Has.bind (subsetEnd_has hs'.text) fun e _ he => ⟨hs'.out, hs'.caches, he⟩

/-- Decoding all the subsets. -/
theorem decodeSubsets_has (hl : safe → l.Fair)
    (h12 : safe → Mild C.E l C.btable (WR_VAR 0 31 12))
    (h21 : safe → Mild C.E l C.btable (WR_VAR 0 31 21)) {ops : List Varcode} {depth : Nat}
    (ho : safe → ∀ c, StandsFor C.dtable ops c → Mild C.E l C.btable c)
    (hd : safe → NestedWithin C.dtable depth ops) (fuel : Nat) (caches : TableCaches) (i : In)
    (hc : caches.Made C.E) (hi : InText i) (r : Res (List (List Var) × In))
    (h : decodeSubsets C depth ops fuel caches i = some r) :
    r.Has safe (fun r => ∀ vs ∈ r.1, ∀ v ∈ vs, v.Sane C.E) := by
  induction fuel generalizing caches i r with
  | zero => cases h
  | succ n ih =>
    unfold decodeSubsets at h
    have hs := decodeSubset_has hF hl h12 h21 ho hd caches i hc hi
    revert h
    cases hq : decodeSubset C depth ops caches i with
    | err e => intro h; cases h; trivial
    | ub =>
      intro h
      cases h
      rw [hq] at hs
      exact hs
    | ok x =>
      obtain ⟨vars, caches', last, j⟩ := x
      obtain ⟨h1, h2, h3⟩ := hs.ok hq
      simp only
      split
      · intro h
        cases h
        intro vs hvs
        rw [List.mem_singleton.mp hvs]
        exact h1
      · intro h
        cases hr : decodeSubsets C depth ops n caches' j with
        | none => rw [hr] at h; cases h
        | some r' =>
          rw [hr] at h
          cases h
          refine Res.Has.bind (ih caches' j h2 h3 r' hr) fun x _ hx => ?_
          intro vs hvs
          rcases List.mem_cons.mp hvs with rfl | hvs
          · exact h1
          · exact hx vs hvs

omit hF in
theorem findPlus_safe : ∀ s : List Byte, findPlus s ≠ .ub := by
  intro s
  induction s with
  | nil => simp [findPlus]
  | cons a t ih =>
    unfold findPlus
    split
    · simp
    · next b t' _ _ he =>
      cases he
      refine Res.Has.not_ub (safe := True) (P := fun _ => True) ?_ trivial
      exact Res.Has.bind (Res.Has.trivial' fun _ => ih) fun _ _ _ => trivial
    · simp

omit hF in
theorem decodeEnd_safe (i : In) : decodeEnd i ≠ .ub := by
  have eof : ∀ j : In, j.check_eof.Has True (fun _ => True) := by
    intro j
    unfold In.check_eof
    split <;> trivial
  have av : ∀ (j : In) (n : Nat), (j.check_available_data n).Has True (fun _ => True) := by
    intro j n
    unfold In.check_available_data
    split <;> trivial
  refine Res.Has.not_ub (safe := True) (P := fun _ => True) ?_ trivial
  unfold decodeEnd
  refine Res.Has.bind (eof _) fun _ _ _ => ?_
  refine Res.Has.bind (av _ _) fun _ _ _ => ?_
  extract_lets jp
  have hjp : ∀ n, (jp n).Has True (fun _ => True) := by
    intro n
    refine Res.Has.bind (eof _) fun _ _ _ => ?_
    refine Res.Has.bind (av _ _) fun _ _ _ => ?_
    split <;> split <;> trivial
  split
  · refine Res.Has.bind (P := fun _ => True) ?_ fun n _ _ => hjp n
    exact Res.Has.bind (Res.Has.trivial' fun _ => findPlus_safe _) fun _ _ _ => trivial
  · exact hjp 0

/-- Decoding the data of a message. -/
theorem decode_data_has (hl : safe → l.Fair)
    (h12 : safe → Mild C.E l C.btable (WR_VAR 0 31 12))
    (h21 : safe → Mild C.E l C.btable (WR_VAR 0 31 21)) {ops : List Varcode} {depth : Nat}
    (ho : safe → ∀ c, StandsFor C.dtable ops c → Mild C.E l C.btable c)
    (hd : safe → NestedWithin C.dtable depth ops) (fuel : Nat) (caches : TableCaches) (i : In)
    (hc : caches.Made C.E) (hi : InText i) (r : Res (List (List Var)))
    (h : decode_data C depth fuel ops caches i = some r) :
    r.Has safe (fun r => ∀ vs ∈ r, ∀ v ∈ vs, v.Sane C.E) := by
  unfold decode_data at h
  split at h
  · cases hr : decodeSubsets C depth ops fuel caches i with
    | none => rw [hr] at h; cases h
    | some r' =>
      rw [hr] at h
      cases h
      refine Res.Has.bind (decodeSubsets_has hF hl h12 h21 ho hd fuel caches i hc hi r' hr)
        fun x _ hx => ?_
      exact Res.Has.bind (P := fun _ => True) (Res.Has.trivial' fun _ => decodeEnd_safe _)
        fun _ _ _ => hx
  · cases h; trivial
  · next hu =>
    unfold In.check_eof at hu
    split at hu <;> cases hu

end Decoder

end Wreport.Crex
