import Verif.Spec.Sane
import Verif.Lemmas.Care
import Verif.Lemmas.Decoded
import Verif.Lemmas.DataSim
import Verif.Lemmas.VarNum
import Verif.Props.Compressed

/-! # Operations on sane variables -/

namespace Wreport

open Spec

variable {E : Env} {safe : Prop}

/-! ## Variables -/

theorem VarCore.Sane.of_num {v : VarCore} (hm : v.info.Made E) (hn : v.info.IsNum) {i : Int}
    (hc : v.cell = .word i) (hi : inInt i = true)
    (hr : v.isset = true → v.info.imin ≤ i ∧ i ≤ v.info.imax) : v.Sane E where
  wf := (WF_num hn).mpr ⟨i, hc, hi⟩
  made := hm
  range := by
    intro j hj
    cases hs : v.isset with
    | false => rw [view_unset hs] at hj; cases hj
    | true =>
      rw [view_num hn hc hs] at hj
      cases hj
      exact hr hs

theorem VarCore.Sane.of_text {v : VarCore} (hm : v.info.Made E) (hn : ¬ v.info.IsNum)
    (hw : v.WF) : v.Sane E where
  wf := hw
  made := hm
  range := by
    intro j hj
    unfold VarCore.view at hj
    split at hj
    · cases hj
    · split at hj
      · exact absurd (Or.inl ‹_›) hn
      · exact absurd (Or.inr ‹_›) hn
      · split at hj <;> cases hj
      · cases hj
      · cases hj

theorem VarCore.Sane.word {v : VarCore} (h : v.Sane E) (hn : v.info.IsNum) :
    ∃ i, v.cell = .word i ∧ inInt i = true ∧
      (v.isset = true → v.info.imin ≤ i ∧ i ≤ v.info.imax) := by
  obtain ⟨i, hc, hi⟩ := (WF_num hn).mp h.wf
  exact ⟨i, hc, hi, fun hs => h.range i (view_num hn hc hs)⟩

theorem Var.Sane.num {v : Var} (h : v.Sane E) (hn : v.info.IsNum) : NumInv E v :=
  ⟨h.core.made, hn, h.core.word hn⟩

theorem Var.Sane.wf {v : Var} (h : v.Sane E) : v.WF :=
  ⟨h.core.wf, fun a ha => (h.attrs a ha).wf, h.sorted⟩

theorem Var.Sane.putInt {v : Var} (h : v.Sane E) (hn : v.info.IsNum) {i : Int}
    (hi : v.info.imin ≤ i ∧ i ≤ v.info.imax) : (v.putInt i).Sane E := by
  obtain ⟨j, h1, h2, h3⟩ := ((h.num hn).putInt hi).value
  exact ⟨.of_num (v := (v.putInt i).toVarCore) h.core.made hn h1 h2 h3, h.attrs, h.sorted⟩

theorem Var.Sane.unset {v : Var} (h : v.Sane E) : v.unset.Sane E where
  core := {
    wf := WF_isset_false h.core.wf
    made := h.core.made
    range := by
      intro i hi
      rw [view_unset (v := v.unset.toVarCore) rfl] at hi
      cases hi }
  attrs := h.attrs
  sorted := h.sorted

theorem Var.Sane.new {info : Varinfo} (h : info.Made E) : (Var.new info).Sane E where
  core := {
    wf := WF_new info
    made := h
    range := by
      intro i hi
      rw [view_unset (v := (Var.new info).toVarCore) rfl] at hi
      cases hi }
  attrs := by simp [Var.new]
  sorted := by simp [Var.new]

theorem assign_i_sane {O : Opts} (hO : O.Sane E) {v : Var} (h : v.Sane E) (hn : v.info.IsNum)
    (val : Int) : (v.assign_i_checked O val).1.Sane E ∧ (v.assign_i_checked O val).1.info = v.info := by
  unfold Var.assign_i_checked
  split
  · split
    · exact ⟨h.unset, rfl⟩
    · rw [if_neg (by simp [hO.clamp])]
      split
      · next hk heq => exact hO.int hk heq v val h
      · exact ⟨h.unset, rfl⟩
  · exact ⟨h.putInt hn (by omega), rfl⟩

theorem assign_d_sane (hE : IsRounding E.fl) {O : Opts} (hO : O.Sane E) {v : Var} (h : v.Sane E)
    (hn : v.info.IsNum) (val : Dbl) :
    (v.assign_d_checked E O val).1.Sane E ∧ (v.assign_d_checked E O val).1.info = v.info := by
  unfold Var.assign_d_checked
  split
  · split
    · exact ⟨h.unset, rfl⟩
    · split
      · next hk heq => exact hO.double hk heq v _ h
      · exact ⟨h.unset, rfl⟩
  · next hnan =>
    split
    · split
      · exact ⟨h.unset, rfl⟩
      · rw [if_neg (by simp [hO.clamp])]
        split
        · next hk heq => exact hO.double hk heq v val h
        · exact ⟨h.unset, rfl⟩
    · next hrange =>
      simp only [not_or, Bool.not_eq_true] at hrange
      obtain ⟨q, i, -, -, he, b1, b2⟩ :=
        putDbl_in_range hE h.core.made hn hnan hrange.1 hrange.2
      rw [he]
      exact ⟨h.putInt hn ⟨b1, b2⟩, rfl⟩

theorem setd_sane (hE : IsRounding E.fl) {O : Opts} (hO : O.Sane E) {v : Var} (h : v.Sane E)
    (val : Dbl) : (v.setd E O val).1.Sane E ∧ (v.setd E O val).1.info = v.info := by
  unfold Var.setd
  split
  · exact ⟨h, rfl⟩
  · exact ⟨h, rfl⟩
  · exact assign_i_sane hO h (Or.inl ‹_›) _
  · exact assign_d_sane hE hO h (Or.inr ‹_›) _

theorem seti_sane {O : Opts} (hO : O.Sane E) {v : Var} (h : v.Sane E) (val : Int) :
    (v.seti O val).1.Sane E ∧ (v.seti O val).1.info = v.info := by
  unfold Var.seti
  split
  · exact ⟨h, rfl⟩
  · exact ⟨h, rfl⟩
  · exact assign_i_sane hO h (Or.inl ‹_›) _
  · exact assign_i_sane hO h (Or.inr ‹_›) _

theorem seti_safe {O : Opts} (hO : O.Safe) {v : Var} (val : Int) : (v.seti O val).2 ≠ .ub := by
  unfold Var.seti
  split
  · simp
  · simp
  · exact assign_i_safe hO
  · exact assign_i_safe hO

theorem newInt_sane {O : Opts} (hO : O.Sane E) (hs : safe → O.Safe) {info : Varinfo}
    (hi : info.Made E) (val : Int) :
    (Var.newInt O info val).Has safe (fun v => v.Sane E ∧ v.info = info) := by
  unfold Var.newInt
  refine Res.Has.bind (P := fun _ => True) (Res.Has.trivial' fun h => seti_safe (hs h) val) ?_
  intro _ _ _
  exact seti_sane hO (Var.Sane.new hi) val

theorem string_not_num {info : Varinfo} (h : info.type = .string) : ¬ info.IsNum := by
  rintro (h' | h') <;> rw [h] at h' <;> cases h'

theorem binary_not_num {info : Varinfo} (h : info.type = .binary) : ¬ info.IsNum := by
  rintro (h' | h') <;> rw [h] at h' <;> cases h'

theorem Var.Sane.setCore {v : Var} (h : v.Sane E) {w : Var} (hc : w.toVarCore.Sane E)
    (ha : w.attrs = v.attrs) : w.Sane E := by
  refine ⟨hc, ?_, ?_⟩
  · rw [ha]; exact h.attrs
  · rw [ha]; exact h.sorted

/-- Any memory with a terminator. -/
theorem terminated_eq {s : List Byte} : ∃ r, c_str s = c_str (s.takeWhile (· ≠ 0)) ++ r := by
  induction s with
  | nil => exact ⟨[], by simp [c_str]⟩
  | cons b s ih =>
    obtain ⟨r, hr⟩ := ih
    by_cases hb : b = 0
    · subst hb
      refine ⟨toMem (s ++ [0]), ?_⟩
      simp [c_str, toMem]
    · refine ⟨r, ?_⟩
      rw [List.takeWhile_cons_of_pos (by simpa using hb)]
      simp only [c_str, toMem, List.cons_append, List.map_cons] at hr ⊢
      rw [hr]

theorem assign_c_sane {v : Var} (h : v.Sane E) (ht : v.info.type = .string) (s : List Byte)
    (size : Nat) :
    (v.assign_c_checked (c_str s) size).2 = .ok () ∧
      (v.assign_c_checked (c_str s) size).1.Sane E ∧
      (v.assign_c_checked (c_str s) size).1.info = v.info := by
  obtain ⟨r, hr⟩ := terminated_eq (s := s)
  obtain ⟨m, h1, h2, h3⟩ := assign_c_ok h.core.wf ht _ r (nulFree_takeWhile s) size
  rw [hr, h1]
  exact ⟨rfl, h.setCore (.of_text (v := (v.putMem m).toVarCore) h.core.made (string_not_num ht)
    (Var.WF_putMem_string ht h2 h3)) rfl, rfl⟩

theorem newStr_sane {O : Opts} {info : Varinfo} (hi : info.Made E) (ht : info.type = .string)
    (s : List Byte) :
    ∃ v, Var.newStr O info s = .ok v ∧ v.Sane E ∧ v.info = info := by
  obtain ⟨h1, h2, h3⟩ := assign_c_sane (v := Var.new info) (Var.Sane.new hi) ht s s.length
  refine ⟨_, ?_, h2, h3⟩
  unfold Var.newStr Var.sets
  simp only [Var.new, ht] at h1 ⊢
  rw [h1]
  rfl

theorem copy_sane {v : Var} (h : v.Sane E) :
    ∃ w, v.copy = .ok w ∧ w.Sane E ∧ w.info = v.info := by
  obtain ⟨w, w1, w2, w3, w4, w5, w6⟩ := copy_ok h.wf
  refine ⟨w, w1, ⟨⟨w2.core, by rw [w3]; exact h.core.made, ?_⟩, ?_, w2.sorted⟩, w3⟩
  · intro i hi
    rw [w5] at hi
    rw [w3]
    exact h.core.range i hi
  · intro a ha
    have : (a.info, a.isset, a.view) ∈ v.attrs.map (fun a => (a.info, a.isset, a.view)) := by
      rw [← w6]
      exact List.mem_map_of_mem ha
    obtain ⟨b, hb, he⟩ := List.mem_map.mp this
    simp only [Prod.mk.injEq] at he
    obtain ⟨e1, -, e3⟩ := he
    have hs := h.attrs b hb
    refine ⟨w2.attrs a ha, by rw [← e1]; exact hs.made, ?_⟩
    intro i hi
    rw [← e1]
    exact hs.range i (by rw [e3]; exact hi)

theorem setaMove_sane {x a : Var} (hx : x.Sane E) (ha : a.toVarCore.Sane E) :
    (x.setaMove a).Sane E := by
  refine ⟨hx.core, ?_, setaList_sorted hx.sorted⟩
  intro b hb
  rcases setaList_mem hb with rfl | hb
  · exact ha
  · exact hx.attrs b hb

/-! ## Reading -/

namespace Input

/-- While `safe` matters, there are at least `b` bits left. -/
def Lasts (safe : Prop) (b : Nat) (i : Input) : Prop := safe → i.WF ∧ b ≤ i.rem.length

theorem Lasts.le {a b : Nat} {i : Input} (h : i.Lasts safe a) (hab : b ≤ a) : i.Lasts safe b :=
  fun s => ⟨(h s).1, hab.trans (h s).2⟩

theorem getLoop_lt (n r : Nat) (i : Input) (hr : r < 2 ^ 32) {x : Nat × Input}
    (h : getLoop n r i = .ok x) : x.1 < 2 ^ 32 := by
  induction n generalizing r i with
  | zero => cases h; exact hr
  | succ n ih =>
    unfold getLoop at h
    obtain ⟨j, -, h⟩ := Res.bind_eq_ok.mp h
    exact ih _ _ (Nat.mod_lt _ (by decide)) h

theorem get_bits_has {i : Input} {b n : Nat} (h : i.Lasts safe (b + n)) :
    (i.get_bits n).Has safe (fun r => r.1 < 2 ^ 32 ∧ r.2.Lasts safe b) := by
  unfold get_bits
  split
  · trivial
  · refine Res.Has.of (fun x hx => ⟨getLoop_lt n 0 i (by decide) hx, fun s => ?_⟩) fun s => ?_
    · obtain ⟨i', g1, g2, g3, -⟩ := getLoop_ok n 0 (h s).1 (by have := (h s).2; omega)
      rw [hx] at g1
      cases g1
      refine ⟨g2, ?_⟩
      show b ≤ i'.rem.length
      have := (h s).2
      rw [g3, List.length_drop]
      omega
    · obtain ⟨i', g1, -⟩ := getLoop_ok n 0 (h s).1 (by have := (h s).2; omega)
      rw [g1]
      simp

theorem getBytes_has (n : Nat) : ∀ {i : Input} {b : Nat}, i.Lasts safe (b + n) →
    (i.getBytes n).Has safe (fun r => r.1.length = (n + 7) / 8 ∧ r.2.Lasts safe b) := by
  induction n using Nat.strong_induction_on with
  | _ n ih =>
    intro i b h
    unfold getBytes
    split
    · next h0 => subst h0; exact ⟨rfl, h⟩
    · next h0 =>
      simp only []
      set c := if 8 < n then 8 else n with hc
      have hc0 : 0 < c ∧ c ≤ n ∧ c ≤ 8 ∧ (c < 8 → c = n) := by
        rw [hc]
        split <;> refine ⟨?_, ?_, ?_, ?_⟩ <;> intros <;> omega
      refine Res.Has.bind (get_bits_has (b := b + (n - c)) (h.le (by omega))) fun r _ hr => ?_
      refine Res.Has.bind (ih (n - c) (by omega) hr.2) fun r' _ hr' => ⟨?_, hr'.2⟩
      simp only [List.length_cons, hr'.1]
      by_cases h8 : c < 8
      · have := hc0.2.2.2 h8
        omega
      · omega

theorem decode_string_has {i : Input} {b n : Nat} (h : i.Lasts safe (b + n)) :
    (i.decode_string n).Has safe (fun r => r.2.Lasts safe b) := by
  unfold decode_string
  refine Res.Has.bind (getBytes_has n h) fun r _ hr => ?_
  split
  · exact hr.2
  · exact hr.2

theorem setDecoded_sane {O : Opts} {v : Var} (h : v.Sane E) (ht : v.info.type = .string)
    (s : Option (List Byte)) :
    ∃ w, setDecoded O v s = .ok w ∧ w.Sane E ∧ w.info = v.info := by
  cases s with
  | none => exact ⟨v, rfl, h, rfl⟩
  | some s =>
    obtain ⟨h1, h2, h3⟩ := assign_c_sane h ht s v.info.len
    refine ⟨_, ?_, h2, h3⟩
    unfold setDecoded Var.setc
    simp only [ht]
    rw [h1]
    rfl

/-- Reading bytes into a binary variable. -/
theorem setBinary_sane {O : Opts} {v : Var} (h : v.Sane E) (ht : v.info.type = .binary)
    {w : List Byte} (hw : w.length = (v.info.bit_len + 7) / 8) (r : Mem) :
    (v.setc O (toMem w ++ r)).2 = .ok () ∧ (v.setc O (toMem w ++ r)).1.Sane E ∧
      (v.setc O (toMem w ++ r)).1.info = v.info := by
  have hlen := h.core.made.2.2.2 ht
  obtain ⟨m0, a1, a2⟩ := WF_allocate h.core.wf (Or.inr ht)
  have hread : memRead (toMem w ++ r) v.info.len = .ok (toMem w) := by
    rw [memRead_of_le (by simp [toMem]; omega)]
    congr 1
    exact List.take_left' (by simp [toMem]; omega)
  have hwrite : memWrite m0 (toMem w) = .ok (toMem w ++ m0.drop w.length) := by
    rw [memWrite_of_le (by simp [toMem]; omega)]
    simp [toMem]
  have hml : (toMem w ++ m0.drop w.length).length = v.info.len + 1 := by simp [toMem]; omega
  have hmask : ∃ m, Var.maskLast v.info (toMem w ++ m0.drop w.length) = .ok m ∧
      m.length = v.info.len + 1 ∧ none ∉ m.take v.info.len := by
    have htake : (toMem w ++ m0.drop w.length).take v.info.len = toMem w :=
      List.take_left' (by simp [toMem]; omega)
    have hnone : none ∉ toMem w := by simp [toMem]
    unfold Var.maskLast
    split
    · exact ⟨_, rfl, hml, by rw [htake]; exact hnone⟩
    · rw [if_neg (by omega)]
      have hlt : v.info.len - 1 < w.length := by omega
      have hg : (toMem w ++ m0.drop w.length)[v.info.len - 1]? = some (some (w[v.info.len - 1])) := by
        rw [List.getElem?_append_left (by simp [toMem]; omega)]
        simp [toMem, hlt]
      rw [hg]
      refine ⟨_, rfl, by simpa using hml, ?_⟩
      rw [List.take_set, htake]
      intro hc
      rcases List.mem_or_eq_of_mem_set hc with hc | hc
      · exact hnone hc
      · cases hc
  obtain ⟨m, m1, m2, m3⟩ := hmask
  have hset : v.setc O (toMem w ++ r) = (v.putMem m, .ok ()) := by
    unfold Var.setc
    simp only [ht]
    unfold Var.assign_b_checked
    rw [a1]
    simp only [Res.ok_bind]
    rw [if_neg (by omega), hread]
    simp only [Res.ok_bind]
    rw [hwrite]
    simp only [Res.ok_bind]
    rw [m1]
    rfl
  rw [hset]
  refine ⟨rfl, h.setCore (.of_text (v := (v.putMem m).toVarCore) h.core.made (binary_not_num ht)
    ?_) rfl, rfl⟩
  unfold VarCore.WF Var.putMem
  simp only [ht]
  exact Or.inr ⟨m, rfl, m2, fun _ => m3⟩

theorem setNumber_sane (hE : IsRounding E.fl) {O : Opts} (hO : O.Sane E) (hs : safe → O.Safe)
    {v : Var} (h : v.Sane E) (hn : v.info.IsNum) (n : Nat) :
    (setNumber E O v n).Has safe (fun w => w.Sane E ∧ w.info = v.info) := by
  unfold setNumber
  refine Res.Has.bind (P := fun _ => True) (Res.Has.trivial' fun _ => ?_) fun d _ _ => ?_
  · obtain ⟨d1, -⟩ := h.core.made.range hn
    have hsc := decode_decimal_scale d1
    unfold Varinfo.decode_binary
    split
    · simp
    · split
      · rw [scales_ok (by omega)]
        simp
      · rw [scales_ok (by omega)]
        simp
  · refine Res.Has.bind (P := fun _ => True)
      (Res.Has.trivial' fun s => setd_safe hE h.core.made hn (hs s)) fun _ _ _ => ?_
    exact setd_sane hE hO h _

theorem setNumberOrMissing_sane (hE : IsRounding E.fl) {O : Opts} (hO : O.Sane E)
    (hs : safe → O.Safe) {v : Var} (h : v.Sane E) (hn : v.info.IsNum) (m : Bool) (n : Nat) :
    (setNumberOrMissing E O v m n).Has safe (fun w => w.Sane E ∧ w.info = v.info) := by
  unfold setNumberOrMissing
  split
  · exact ⟨h.unset, rfl⟩
  · exact setNumber_sane hE hO hs h hn n

theorem all_ones_has {n : Nat} (h : safe → OnesOk E n) :
    (all_ones E n).Has safe (fun _ => True) :=
  Res.Has.trivial' fun s => by
    rw [all_ones_ok (h s).1 (h s).2]
    simp

/-- Reading a value. -/
theorem decode_value_has {C : Ctx} (hE : IsRounding C.E.fl) (hO : C.O.Sane C.E)
    (hs : safe → C.O.Safe) {i : Input} {info : Varinfo} {b : Nat} (hm : info.Made C.E)
    (hn : safe → info.IsNum → OnesOk C.E info.bit_len) (h : i.Lasts safe (b + info.bit_len)) :
    (Decoder.decode_uniform_b_value C i info).Has safe
      (fun r => r.1.Sane C.E ∧ r.1.info = info ∧ r.2.Lasts safe b) := by
  have hnew := Var.Sane.new hm
  have num : info.IsNum → (i.decode_number C.E C.O (Var.new info)).Has safe
      (fun r => r.1.Sane C.E ∧ r.1.info = info ∧ r.2.Lasts safe b) := by
    intro ht
    unfold decode_number
    refine Res.Has.bind (get_bits_has (n := (Var.new info).info.bit_len) h) fun r _ hr => ?_
    refine Res.Has.bind (P := fun _ => True) ?_ fun m _ _ => ?_
    · unfold isMissing
      split
      · trivial
      · exact Res.Has.bind (all_ones_has fun s => hn s ht) fun _ _ _ => trivial
    · exact Res.Has.bind (setNumberOrMissing_sane hE hO hs hnew ht m r.1) fun w _ hw =>
        ⟨hw.1, hw.2, hr.2⟩
  unfold Decoder.decode_uniform_b_value
  split
  · next ht =>
    unfold decode_string_var
    refine Res.Has.bind (decode_string_has (n := (Var.new info).info.bit_len) h) fun r _ hr => ?_
    obtain ⟨w, h1, h2, h3⟩ := setDecoded_sane (O := C.O) hnew ht r.1
    rw [h1]
    exact ⟨h2, h3, hr⟩
  · next ht =>
    unfold Input.decode_binary
    refine Res.Has.bind (getBytes_has (Var.new info).info.bit_len h) fun r _ hr => ?_
    split
    · exact ⟨hnew, rfl, hr.2⟩
    · simp only []
      obtain ⟨h1, h2, h3⟩ := setBinary_sane (O := C.O) hnew ht hr.1
        (List.replicate ((Var.new info).info.bit_len / 8 + 1 - r.1.length) none)
      rw [h1]
      exact ⟨h2, h3, hr.2⟩
  · exact num (Or.inl ‹_›)
  · exact num (Or.inr ‹_›)

end Input

end Wreport
