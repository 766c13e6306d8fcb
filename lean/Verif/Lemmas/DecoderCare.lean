import Verif.Lemmas.Tame

/-! # What decoding an uncompressed message keeps true -/

namespace Wreport

open Spec

variable {safe : Prop} {l : Bounds}

/-! ## Descriptions made up while decoding -/

theorem set_string_made {E : Env} {c : Varcode} {n : Nat} {i : Varinfo}
    (h : Varinfo.set_string E c n = .ok i) :
    i.Made E ∧ i.type = .string ∧ i.len = n ∧ i.code = c := by
  have hraw : ∃ raw : Varinfo, raw.compute_range E = .ok i := ⟨_, h⟩
  have hz : inInt 0 = true := by decide
  unfold Varinfo.set_string Varinfo.compute_range at h
  simp only [Varinfo.raw] at h
  cases h
  exact ⟨⟨hraw, hz, by simp, by simp⟩, rfl, rfl, rfl⟩

theorem set_binary_made {E : Env} {c : Varcode} {n : Nat} {i : Varinfo}
    (h : Varinfo.set_binary E c n = .ok i) :
    i.Made E ∧ i.type = .binary ∧ i.bit_len = n ∧ i.code = c := by
  have hraw : ∃ raw : Varinfo, raw.compute_range E = .ok i := ⟨_, h⟩
  have hz : inInt 0 = true := by decide
  unfold Varinfo.set_binary Varinfo.compute_range at h
  simp only [Varinfo.raw] at h
  cases h
  exact ⟨⟨hraw, hz, by simp, by simp⟩, rfl, rfl, rfl⟩

theorem lookup_mem' {κ ι : Type} [DecidableEq κ] {k : κ} {i : ι} : ∀ {m : List (κ × ι)},
    m.lookup k = some i → (k, i) ∈ m
  | [], h => by cases h
  | (d, j) :: m, h => by
    rw [List.lookup_cons] at h
    split at h
    · next he =>
      cases h
      rw [eq_of_beq he]
      simp
    · exact List.mem_cons_of_mem _ (lookup_mem' h)

/-- What a cache returns is in it afterwards. -/
theorem lookupOrAdd_has {κ : Type} [DecidableEq κ] {Q : κ → Varinfo → Prop}
    {m : List (κ × Varinfo)} {k : κ} {c : Varcode} {mk : Res Varinfo}
    (hm : ∀ k i, (k, i) ∈ m → Q k i) (hk : mk.Has safe (Q k)) :
    (TableCaches.lookupOrAdd m k c mk).2.Has safe (Q k) ∧
      ∀ k' i, (k', i) ∈ (TableCaches.lookupOrAdd m k c mk).1 → Q k' i := by
  unfold TableCaches.lookupOrAdd
  cases hl : m.lookup k with
  | some i =>
    simp only
    split
    · exact ⟨trivial, hm⟩
    · exact ⟨hm _ _ (lookup_mem' hl), hm⟩
  | none =>
    cases mk with
    | ok i =>
      refine ⟨hk, fun k' j hj => ?_⟩
      rcases List.mem_cons.mp hj with h | h
      · cases h; exact hk
      · exact hm _ _ h
    | err e => exact ⟨trivial, hm⟩
    | ub => exact ⟨hk, hm⟩

theorem set_string_has {E : Env} {c : Varcode} {n : Nat} {k : Varcode → Prop} (hk : k c) :
    (Varinfo.set_string E c n).Has safe
      (fun i => Varinfo.set_string E i.code n = .ok i ∧ k i.code) := by
  refine Res.Has.of (fun i hi => ?_) fun _ => ?_
  · obtain ⟨-, -, -, h⟩ := set_string_made hi
    rw [h]
    exact ⟨hi, hk⟩
  · unfold Varinfo.set_string Varinfo.compute_range
    simp [Varinfo.raw]

theorem set_binary_has {E : Env} {c : Varcode} {n : Nat} :
    (Varinfo.set_binary E c n).Has safe (fun i => Varinfo.set_binary E i.code n = .ok i) := by
  refine Res.Has.of (fun i hi => ?_) fun _ => ?_
  · obtain ⟨-, -, -, h⟩ := set_binary_made hi
    rw [h]
    exact hi
  · unfold Varinfo.set_binary Varinfo.compute_range
    simp [Varinfo.raw]

namespace TableCaches.Made

variable {E : Env} {t : TableCaches}

theorem get_unknown (h : t.Made E) (c : Varcode) (n : Nat) :
    (t.get_unknown E c n).2.Has safe (fun i => i.Made E ∧ i.type = .binary ∧ i.bit_len = n) ∧
      (t.get_unknown E c n).1.Made E := by
  obtain ⟨h1, h2⟩ := lookupOrAdd_has (safe := safe) (c := c) (k := n) h.unknown
    (set_binary_has (E := E) (c := c))
  refine ⟨h1.mono fun i hi => ?_, ⟨h.bitmap, h.chardata, h2⟩⟩
  obtain ⟨a, b, c, -⟩ := set_binary_made hi
  exact ⟨a, b, c⟩

theorem get_bitmap (h : t.Made E) (c : Varcode) (m : List Byte) :
    (t.get_bitmap E c m).2.Has safe (fun i => i.Made E ∧ i.type = .string) ∧
      (t.get_bitmap E c m).1.Made E := by
  obtain ⟨h1, h2⟩ := lookupOrAdd_has (safe := safe) (c := c) (k := m) h.bitmap
    ((set_string_has (E := E) (c := c) (k := fun _ => True) trivial).mono fun i hi => hi.1)
  refine ⟨h1.mono fun i hi => ?_, ⟨h2, h.chardata, h.unknown⟩⟩
  obtain ⟨a, b, -, -⟩ := set_string_made hi
  exact ⟨a, b⟩

theorem get_chardata (h : t.Made E) (c : Varcode) :
    (t.get_chardata E c (WR_VAR_Y c)).2.Has safe
        (fun i => i.Made E ∧ i.type = .string ∧ i.len = WR_VAR_Y c) ∧
      (t.get_chardata E c (WR_VAR_Y c)).1.Made E := by
  obtain ⟨h1, h2⟩ := lookupOrAdd_has (safe := safe) (c := c) (k := c) h.chardata
    ((set_string_has (E := E) (c := c) (n := WR_VAR_Y c) (k := (· = c)) rfl).mono fun i hi => by
      have := hi.1
      rw [hi.2] at this
      exact this)
  refine ⟨h1.mono fun i hi => ?_, ⟨h.bitmap, h2, h.unknown⟩⟩
  obtain ⟨a, b, c, -⟩ := set_string_made hi
  exact ⟨a, b, c⟩

theorem empty : ({ bitmap_table := [], chardata_table := [], unknown_table := [] } :
    TableCaches).Made E :=
  ⟨by simp, by simp, by simp⟩

end TableCaches.Made

/-! ## Attributes that associated fields become -/

theorem fieldAttr_has {E : Env} {O : Opts} (hO : O.Sane E) (hs : safe → O.Safe) {t : Vartable}
    (ht : t.Inv E) (c : Varcode) (m : Bool) (n : Nat) :
    (AssociatedField.fieldAttr O t c m n).Has safe (fun o => ∀ a, o = some a → a.Sane E) := by
  unfold AssociatedField.fieldAttr
  refine Res.Has.bind (P := fun i => i.Made E) (Res.Has.of (fun i hi => ?_) fun _ =>
    Vartable.query_safe t c) fun i _ hi => ?_
  · obtain ⟨k, e, he, rfl, -⟩ := Vartable.query_found hi
    exact (ht.entries e (List.mem_of_getElem? he)).made
  · split
    · intro a ha
      cases ha
      exact Var.Sane.new hi
    · refine Res.Has.bind (newInt_sane hO hs hi _) fun v _ hv => ?_
      intro a ha
      cases ha
      exact hv.1

theorem make_attribute_has {E : Env} {O : Opts} (hO : O.Sane E) (hs : safe → O.Safe) {t : Vartable}
    (ht : t.Inv E) (f : AssociatedField) (hf : safe → OnesOk E f.bit_count) (n : Nat) :
    (f.make_attribute E O t n).Has safe (fun o => ∀ a, o = some a → a.Sane E) := by
  have none : (Res.ok (none : Option Var)).Has safe (fun o => ∀ a, o = some a → a.Sane E) := by
    intro a ha
    cases ha
  have fa := fun c m n => fieldAttr_has (safe := safe) hO hs ht c m n
  unfold AssociatedField.make_attribute
  refine Res.Has.bind (Input.all_ones_has hf) fun ones _ _ => ?_
  simp only []
  split
  · exact fa _ _ _
  split
  · exact fa _ _ _
  split
  · split
    · exact none
    · exact fa _ _ _
  split
  · exact fa _ _ _
  split
  · split
    · exact none
    · exact fa _ _ _
  split
  · split
    · exact fa _ _ _
    · exact none
  split
  · exact none
  · trivial

/-! ## The decoder -/

namespace Decoder

/-- What holds while decoding a subset. -/
structure Kept (safe : Prop) (E : Env) (l : Bounds) (b : Nat) (s : St) : Prop where
  caches : s.caches.Made E
  out : ∀ v ∈ s.tgt.out, v.Sane E
  lasts : s.tgt.input.Lasts safe b
  mode : safe → Mode.Tame E l s

variable {C : Ctx} {b : Nat} {s : St}

theorem getChars_has (n : Nat) : ∀ {i : Input} {b : Nat}, i.Lasts safe (b + 8 * n) →
    (getChars n i).Has safe (fun r => r.2.Lasts safe b) := by
  induction n with
  | zero => intro i b h; exact h
  | succ n ih =>
    intro i b h
    unfold getChars
    refine Res.Has.bind (Input.get_bits_has (b := b + 8 * n) (h.le (by omega))) fun r _ hr => ?_
    exact Res.Has.bind (ih hr.2) fun r' _ hr' => hr'

theorem getLoop_small (n r : Nat) (i : Input) {x : Nat × Input}
    (h : Input.getLoop n r i = .ok x) : x.1 < (r + 1) * 2 ^ n := by
  induction n generalizing r i with
  | zero => cases h; simp
  | succ n ih =>
    unfold Input.getLoop at h
    obtain ⟨j, -, h⟩ := Res.bind_eq_ok.mp h
    have := ih _ _ h
    refine this.trans_le ?_
    rw [pow_succ 2 n, Nat.mul_comm (2 ^ n) 2, ← Nat.mul_assoc]
    refine Nat.mul_le_mul_right _ ?_
    have hle : (r <<< 1 ||| (decide (j.pbyte &&& 0x80 ≠ 0)).toNat) % 2 ^ 32 ≤ r * 2 + 1 := by
      refine (Nat.mod_le _ _).trans ?_
      have hb : (decide (j.pbyte &&& 0x80 ≠ 0)).toNat ≤ 1 := Bool.toNat_le _
      have hs : r <<< 1 = r * 2 := by simp [Nat.shiftLeft_eq]
      rw [← Nat.shiftLeft_add_eq_or_of_lt (by omega)]
      omega
    omega

theorem get_bits_small {i : Input} {n : Nat} {x : Nat × Input} (h : i.get_bits n = .ok x) :
    x.1 < 2 ^ n := by
  unfold Input.get_bits at h
  split at h
  · cases h
  · simpa using getLoop_small n 0 i h

theorem Kept.le {a : Nat} (h : Kept safe C.E l a s) (hab : b ≤ a) : Kept safe C.E l b s :=
  ⟨h.caches, h.out, h.lasts.le hab, h.mode⟩

theorem Kept.setInput {a : Nat} (h : Kept safe C.E l a s) {i : Input} (hi : i.Lasts safe b) :
    Kept safe C.E l b (setInput s i) where
  caches := h.caches
  out := h.out
  lasts := hi
  mode := fun hs => { h.mode hs with }

theorem Kept.store (h : Kept safe C.E l b s) {v : Var} (hv : v.Sane C.E) :
    Kept safe C.E l b (store s v) where
  caches := h.caches
  out := by
    intro w hw
    rcases List.mem_append.mp hw with hw | hw
    · exact h.out w hw
    · rw [List.mem_singleton.mp hw]; exact hv
  lasts := h.lasts
  mode := fun hs => { h.mode hs with }

theorem Kept.setAt (h : Kept safe C.E l b s) {v : Var} (hv : v.Sane C.E) (pos : Nat) :
    Kept safe C.E l b (setAt s pos v) where
  caches := h.caches
  out := by
    intro w hw
    rcases List.mem_or_eq_of_mem_set hw with hw | hw
    · exact h.out w hw
    · rw [hw]; exact hv
  lasts := h.lasts
  mode := fun hs => { h.mode hs with }

theorem Kept.setCaches (h : Kept safe C.E l b s) {t : TableCaches} (ht : t.Made C.E) :
    Kept safe C.E l b { s with caches := t } where
  caches := ht
  out := h.out
  lasts := h.lasts
  mode := fun hs => { h.mode hs with }

theorem storeCopy_has (h : Kept safe C.E l b s) {v : Var} (hv : v.Sane C.E) :
    (storeCopy s v).Has safe (fun s' => Kept safe C.E l b s' ∧ s'.tgt.out ≠ []) := by
  unfold storeCopy
  obtain ⟨w, h1, h2, -⟩ := copy_sane hv
  rw [h1]
  exact ⟨h.store h2, by simp [store]⟩

/-- What decoding needs of what it is given. -/
structure Fit (safe : Prop) (C : Ctx) : Prop where
  rounding : IsRounding C.E.fl
  table : C.btable.Inv C.E
  opts : C.O.Sane C.E
  calm : safe → C.O.Safe

variable (hF : Fit safe C) {i : Varinfo} (hi : Handy safe C.E l.room i)

include hF hi

theorem value_has {j : Input} (h : j.Lasts safe (b + l.room)) :
    (decode_uniform_b_value C j i).Has safe
      (fun r => r.1.Sane C.E ∧ r.1.info = i ∧ r.2.Lasts safe b) := by
  refine Input.decode_value_has hF.rounding hF.opts hF.calm hi.made hi.ones ?_
  intro hs
  refine ⟨(h hs).1, ?_⟩
  have := hi.width hs
  have := (h hs).2
  omega

theorem variable_has (h : Kept safe C.E l (b + l.room) s) :
    (define_variable C s i).Has safe (Kept safe C.E l b) := by
  unfold define_variable
  refine Res.Has.bind (value_has hF hi h.lasts) fun r _ hr => ?_
  exact (storeCopy_has (h.setInput hr.2.2) hr.1).mono fun s' hs' => hs'.1

theorem associated_has (h : Kept safe C.E l (b + (l.room + 32)) s)
    (hb : s.associated_field.bit_count ≠ 0) :
    (define_variable_with_associated_field C s i).Has safe (Kept safe C.E l b) := by
  unfold define_variable_with_associated_field
  have hones : safe → OnesOk C.E s.associated_field.bit_count := fun hs => (h.mode hs).field hb
  have hlast : s.tgt.input.Lasts safe (b + l.room + s.associated_field.bit_count) := by
    intro hs
    refine ⟨(h.lasts hs).1, ?_⟩
    have := (h.lasts hs).2
    have : s.associated_field.bit_count ≤ 32 := by
      rcases (hones hs).2 with h | h
      · omega
      · omega
    omega
  refine Res.Has.bind (Input.get_bits_has hlast) fun r _ hr => ?_
  refine Res.Has.bind (make_attribute_has hF.opts hF.calm hF.table _ hones _) fun a _ ha => ?_
  refine Res.Has.bind (value_has hF hi hr.2) fun w _ hw => ?_
  refine Res.Has.bind (storeCopy_has (h.setInput hw.2.2) hw.1) fun s' _ hs' => ?_
  unfold setLast
  cases a with
  | none => exact hs'.1
  | some a =>
    cases hl : s'.tgt.out.getLast? with
    | none =>
      rw [List.getLast?_eq_none_iff] at hl
      exact absurd hl hs'.2
    | some v =>
      exact hs'.1.setAt (setaMove_sane (hs'.1.out v (List.mem_of_getLast? hl)) (ha a rfl).core) _

omit hF hi in
theorem enqi_has {v : VarCore} (hv : v.Sane C.E) : v.enqi.Has safe (fun _ => True) := by
  refine Res.Has.trivial' fun _ => ?_
  unfold VarCore.enqi
  split
  · simp
  · split
    · simp
    · simp
    all_goals
      obtain ⟨k, hk, -⟩ := hv.word (by simp [Varinfo.IsNum, *])
      rw [hk]
      simp

omit hF hi in
theorem toU32_lt (k : Int) : toU32 k < 2 ^ 32 := by
  unfold toU32
  omega

theorem factor_has (h : Kept safe C.E l (b + l.room) s) :
    (define_delayed_replication_factor C s i).Has safe
      (fun r => r.1 < 2 ^ 32 ∧ Kept safe C.E l b r.2) := by
  unfold define_delayed_replication_factor decode_and_add_to_all
  refine Res.Has.bind (P := fun r => r.1.Sane C.E ∧ Kept safe C.E l b r.2) ?_ fun r _ hr => ?_
  · refine Res.Has.bind (value_has hF hi h.lasts) fun r _ hr => ?_
    exact ⟨hr.1, (h.setInput hr.2.2).store hr.1⟩
  · refine Res.Has.bind (enqi_has hr.1.core) fun n _ _ => ?_
    exact ⟨toU32_lt n, hr.2⟩

theorem meaning_has (h : Kept safe C.E l (b + l.room) s) :
    (define_associated_field_significance C s i).Has safe (fun r => Kept safe C.E l b
      { r.2 with associated_field := { r.2.associated_field with significance := r.1 } }) := by
  unfold define_associated_field_significance decode_and_add_to_all
  refine Res.Has.bind (P := fun r => r.1.Sane C.E ∧ Kept safe C.E l b r.2) ?_ fun r _ hr => ?_
  · refine Res.Has.bind (value_has hF hi h.lasts) fun r _ hr => ?_
    exact ⟨hr.1, (h.setInput hr.2.2).store hr.1⟩
  · refine Res.Has.bind (P := fun _ => True) ?_ fun n _ _ => ?_
    · unfold Enc.enq63
      split
      · exact enqi_has hr.1.core
      · trivial
    · exact ⟨hr.2.caches, hr.2.out, hr.2.lasts, fun hs => { hr.2.mode hs with }⟩

theorem attr_has (h : Kept safe C.E l (b + l.room) s) (hns : ¬ safe) (pos : Nat) :
    (decode_and_set_attribute C s i pos).Has safe (Kept safe C.E l b) := by
  unfold decode_and_set_attribute
  refine Res.Has.bind (value_has hF hi h.lasts) fun r _ hr => ?_
  split
  · exact h.setInput hr.2.2
  · split
    · exact hns
    · next v hv =>
      unfold Var.seta
      obtain ⟨w, h1, h2, -⟩ := copy_sane hr.1
      rw [h1]
      exact (h.setInput hr.2.2).setAt (setaMove_sane (h.out v (List.mem_of_getElem? hv)) h2.core) _

theorem bitmapFactor_has (h : Kept safe C.E l (b + l.room) s)
    (hp : s.bitmaps.pending_definitions ≠ 0) :
    (define_bitmap_delayed_replication_factor C s i).Has safe
      (fun r => r.1 < 2 ^ 32 ∧ r.2.bitmaps.pending_definitions ≠ 0 ∧ Kept safe C.E l b r.2) := by
  unfold define_bitmap_delayed_replication_factor
  refine Res.Has.bind (value_has hF hi h.lasts) fun r _ hr => ?_
  refine Res.Has.bind (enqi_has hr.1.core) fun n _ _ => ?_
  exact ⟨toU32_lt n, hp, h.setInput hr.2.2⟩

omit hF hi in
theorem raw_has (h : Kept safe C.E l (b + l.room) s) (c : Varcode) :
    (define_raw_character_data C s c).Has safe (Kept safe C.E l b) := by
  unfold define_raw_character_data
  obtain ⟨h1, h2⟩ := h.caches.get_chardata (safe := safe) c
  refine Res.Has.bind h1 fun i _ hi => ?_
  have hy : WR_VAR_Y c < 256 := Nat.mod_lt _ (by decide)
  have hlast : s.tgt.input.Lasts safe (b + 8 * i.len) := h.lasts.le (by
    rw [hi.2.2]
    unfold Bounds.room
    omega)
  refine Res.Has.bind (getChars_has i.len hlast) fun r _ hr => ?_
  obtain ⟨v, v1, v2, -⟩ := newStr_sane (O := C.O) hi.1 hi.2.1 r.1
  rw [v1, Res.ok_bind]
  exact (storeCopy_has ((h.setCaches h2).setInput hr) v2).mono fun s' hs' => hs'.1

omit hF hi in
theorem bitmap_has (h : Kept safe C.E l b s) (hns : ¬ safe) (n : Nat) :
    (define_bitmap C s n).Has safe (fun s' => Kept safe C.E l b
      { s' with bitmaps := { s'.bitmaps with pending_definitions := 0 } }) := by
  refine Res.Has.of (fun s' hs' => ?_) fun hs => absurd hs hns
  unfold define_bitmap at hs'
  obtain ⟨r, -, hs'⟩ := Res.bind_eq_ok.mp hs'
  obtain ⟨h1, h2⟩ := h.caches.get_bitmap (safe := safe) s.bitmaps.pending_definitions r.1
  obtain ⟨i, hi, hs'⟩ := Res.bind_eq_ok.mp hs'
  have hm := h1.ok hi
  obtain ⟨v, v1, v2, -⟩ := newStr_sane (O := C.O) hm.1 hm.2 r.1
  rw [v1, Res.ok_bind] at hs'
  obtain ⟨m, -, hs'⟩ := Res.bind_eq_ok.mp hs'
  cases hs'
  have := ((h.setCaches h2).setInput (i := r.2) (b := b) fun hs => absurd hs hns).store v2
  exact ⟨this.caches, this.out, this.lasts, fun hs => absurd hs hns⟩

omit hF hi in
theorem wrapInt_small {k : Int} (h : |k| < 2 ^ 30) : wrapInt k = k := by
  have := abs_lt.mp h
  norm_num at this
  exact wrapInt_eq (inInt_iff.mpr (by omega))

omit hF hi in
theorem ofU32_toU32_small {k : Int} (h : |k| < 2 ^ 30) : ofU32 (toU32 k) = k := by
  have := abs_lt.mp h
  norm_num at this
  unfold ofU32 toU32 wrapInt
  omega

omit hF hi in
theorem refval_bits {j : Input} {n : Nat} (hn : n ≤ 30) (hj : j.Lasts safe (b + n)) :
    (decode_c03_refval_override j n).Has safe (fun r => |r.1| < 2 ^ 30 ∧ r.2.Lasts safe b) := by
  unfold decode_c03_refval_override
  refine Res.Has.bind (Input.get_bits_has hj) fun r hr0 hr => ?_
  have hsmall : r.1 < 2 ^ 30 :=
    (get_bits_small hr0).trans_le (Nat.pow_le_pow_right (by decide) hn)
  have key : ∀ x : Nat, x < 2 ^ 30 → |(x : Int)| < 2 ^ 30 := by
    intro x hx
    rw [Nat.abs_cast]
    exact_mod_cast hx
  unfold shl1
  rw [if_pos (by omega), Res.ok_bind]
  split
  · refine ⟨?_, hr.2⟩
    have hle : r.1 &&& (2 ^ 32 - 1 - toU32 (2 ^ (n - 1) : Nat)) < 2 ^ 30 :=
      Nat.and_le_left.trans_lt hsmall
    generalize r.1 &&& (2 ^ 32 - 1 - toU32 (2 ^ (n - 1) : Nat)) = x at hle ⊢
    have hx : |(-(x : Int))| < 2 ^ 30 := by
      rw [abs_neg]
      exact key x hle
    rw [ofU32_toU32_small hx]
    exact hx
  · refine ⟨?_, hr.2⟩
    unfold ofU32
    rw [wrapInt_small (key _ hsmall)]
    exact key _ hsmall

omit hF hi in
theorem refval_has (h : Kept safe C.E l (b + l.room) s) (c : Varcode) :
    (define_c03_refval_override C s c).Has safe (Kept safe C.E l b) := by
  unfold define_c03_refval_override
  by_cases hs : safe
  · have hm := h.mode hs
    have hroom : 30 ≤ l.room := by unfold Bounds.room; omega
    have hbits := hm.bits
    refine Res.Has.bind (refval_bits (b := b) hbits (h.lasts.le (by omega))) fun r _ hr => ?_
    have := h.setInput hr.2
    refine ⟨this.caches, this.out, this.lasts, fun _ => { hm with refs := ?_ }⟩
    intro c' n hn
    rcases List.mem_cons.mp hn with hn | hn
    · rw [Prod.mk.injEq] at hn
      rw [hn.2, ofU32_toU32_small hr.1]
      exact hr.1
    · exact hm.refs c' n hn
  · refine Res.Has.of (fun s' hs' => ?_) fun hs' => absurd hs' hs
    obtain ⟨r, -, hs'⟩ := Res.bind_eq_ok.mp hs'
    cases hs'
    exact ⟨h.caches, h.out, fun hs' => absurd hs' hs, fun hs' => absurd hs' hs⟩

omit hF hi in
theorem change_bounds {y : Nat} {a z : Nat} (h : y = 0 ∨ (128 ≤ y + a ∧ y ≤ 128 + z)) :
    -(a : Int) ≤ Interp.change y ∧ Interp.change y ≤ z := by
  unfold Interp.change
  split <;> omega

omit hi in
theorem simple_has (h : Kept safe C.E l (b + l.room) s) {c : Varcode}
    (hm : safe → MildOperator l (WR_VAR_X c) (WR_VAR_Y c))
    (hc : safe → PlainOperator C.E (WR_VAR_X c) (WR_VAR_Y c)) :
    (Interp.c_simple (target C) s c).Has safe (Kept safe C.E l b) := by
  have hle : Kept safe C.E l b s := h.le (by omega)
  have hy : WR_VAR_Y c < 256 := Nat.mod_lt _ (by decide)
  have keep : ∀ s' : St, s'.caches = s.caches → s'.tgt = s.tgt →
      (safe → Mode.Tame C.E l s') → Kept safe C.E l b s' := by
    intro s' h1 h2 h3
    exact ⟨by rw [h1]; exact hle.caches, by rw [h2]; exact hle.out, by rw [h2]; exact hle.lasts, h3⟩
  unfold MildOperator at hm
  unfold PlainOperator at hc
  unfold Interp.c_simple
  simp only []
  split <;> rename_i hx <;> (try simp only [hx] at hc hm)
  · refine keep _ rfl rfl fun hs => { h.mode hs with width := change_bounds (hm hs) }
  · refine keep _ rfl rfl fun hs => { h.mode hs with scale := ?_ }
    show -128 ≤ Interp.change _ ∧ Interp.change _ ≤ 127
    unfold Interp.change
    split <;> omega
  · refine keep _ rfl rfl fun hs => { h.mode hs with bits := ?_ }
    have := hc hs
    show (if _ then _ else _) ≤ 30
    split <;> omega
  · exact raw_has h c
  · refine keep _ rfl rfl fun hs => { h.mode hs with power := ?_ }
    have := hm hs
    constructor
    · exact Int.natCast_nonneg _
    · exact Int.ofNat_le.mpr this
  · refine keep _ rfl rfl fun hs => { h.mode hs with chars := ?_ }
    constructor
    · exact Int.natCast_nonneg _
    · show ((WR_VAR_Y c : Nat) : Int) ≤ 255
      omega
  · split
    · trivial
    · next h0 =>
      exact keep _ rfl rfl fun hs => absurd (hc hs) h0
  · unfold Interp.c23
    split
    · next h0 =>
      exact keep _ rfl rfl fun hs => absurd h0 (hc hs)
    · split
      · split
        · trivial
        · next ha =>
          refine Res.Has.of (fun s' hs' => ?_) fun hs => ?_
          · have hns : ¬ safe := by
              intro hs
              apply ha
              simp [Bitmaps.active, (h.mode hs).current]
            obtain ⟨r, -, hs'⟩ := Res.bind_eq_ok.mp hs'
            change define_substituted_value C _ _ = _ at hs'
            unfold define_substituted_value at hs'
            split at hs'
            · cases hs'
            · next v hv =>
              have hv' := h.out v (List.mem_of_getElem? hv)
              have hk : Kept safe C.E l (b + l.room) { s with bitmaps := r.2 } :=
                ⟨h.caches, h.out, h.lasts, fun hs => absurd hs hns⟩
              exact (attr_has hF ⟨hv'.core.made, fun hs => absurd hs hns, fun hs => absurd hs hns⟩
                hk hns r.1).ok hs'
          · exfalso
            apply ha
            simp [Bitmaps.active, (h.mode hs).current]
      · trivial
  · unfold Interp.c37
    split
    · refine keep _ rfl rfl fun hs => { h.mode hs with pending := rfl, current := ?_, last := rfl }
      show s.bitmaps.reuse_last.current = none
      unfold Bitmaps.reuse_last
      rw [(h.mode hs).last]
      rfl
    · split
      · exact keep _ rfl rfl fun hs => { h.mode hs with last := rfl }
      · trivial
  · exact hle

omit hF hi in
theorem StandsFor.trans {t : DTable} {ops : List Varcode} {c d : Varcode} {seq : List Varcode}
    (h : StandsFor t seq c) (hd : d ∈ ops) (hf : WR_VAR_F d = 3) (hq : t.query d = .ok seq) :
    StandsFor t ops c := by
  induction h with
  | here h => exact .inside (.here hd) hf hq h
  | inside _ f q m ih => exact .inside ih f q m

/-- Descriptors that have only tame ones among them. -/
def TameBelow (C : Ctx) (l : Bounds) (c : Varcode) : Prop :=
  ∀ d, StandsFor C.dtable [c] d → Tame C.E l C.btable d

omit hF hi in
theorem TameBelow.self {c : Varcode} (h : TameBelow C l c) : Tame C.E l C.btable c :=
  h c (.here (by simp))

omit hF hi in
theorem TameBelow.leaf {c : Varcode} (h : Tame C.E l C.btable c) (hf : WR_VAR_F c ≠ 3) :
    TameBelow C l c := by
  intro d hd
  have : d = c := by
    induction hd with
    | here h => simpa using h
    | inside _ f _ _ ih => rw [ih] at f; exact absurd f hf
  rw [this]
  exact h

omit hi in
/-- The decoder keeps what it should. -/
theorem care (hl : safe → l.Fair)
    (h12 : safe → Tame C.E l C.btable (WR_VAR 0 31 12))
    (h21 : safe → Tame C.E l C.btable (WR_VAR 0 31 21)) :
    Care safe C (target C) (Kept safe C.E l) (l.room + 32) (Handy safe C.E l.room)
      (fun c => safe → TameBelow C l c) where
  mono b k s h := h.le (by omega)
  query c hc := Vartable.query_has (l := l) hF.table fun hs i hi =>
    ⟨(hc hs).self.1.1 i hi, by unfold Bounds.room; omega⟩
  contains c _ := Vartable.contains_safe _ _
  sequence c hc hf := by
    refine Res.Has.of (fun seq hseq x hx hs d hd => ?_) fun _ => DTable.query_safe _ _
    refine hc hs d ?_
    have : StandsFor C.dtable seq d := by
      induction hd with
      | here h => rw [List.mem_singleton.mp h]; exact .here hx
      | inside _ f q m ih => exact .inside ih f q m
    exact StandsFor.trans this (by simp) hf hseq
  factorCode hs := .leaf (h12 hs) (by decide)
  meaningCode hs := .leaf (h21 hs) (by decide)
  info b s c hc h := get_varinfo_has hF.table hl (fun hs => (h.mode hs).toMild) fun hs => (hc hs).self.1.1
  unknown b s c n h h0 h256 := by
    obtain ⟨h1, h2⟩ := h.caches.get_unknown (safe := safe) c n
    refine h1.mono fun i hi => ⟨⟨hi.1, fun _ => ?_, fun _ hn => ?_⟩, h.setCaches h2⟩
    · rw [hi.2.2]
      unfold Bounds.room
      omega
    · exact absurd hn (binary_not_num hi.2.1)
  bitmap b s n _ hp h := by
    by_cases hs : safe
    · exact absurd (h.mode hs).pending hp
    · exact bitmap_has (h.le (by omega)) hs n
  element b s i hi h := variable_has hF hi (h.le (by omega))
  associated b s i hi hb h := associated_has hF hi h hb
  factor b s i hi h := factor_has hF hi (h.le (by omega))
  bitmapFactor b s i hi hp h := bitmapFactor_has hF hi (h.le (by omega)) hp
  field b s c hc hf hx hy h := by
    refine ⟨h.caches, h.out, h.lasts, fun hs => { h.mode hs with field := fun h0 => ?_ }⟩
    have := (hc hs).self.2 hf
    unfold PlainOperator at this
    simp only [hx] at this
    refine ⟨Nat.pos_of_ne_zero h0, ?_⟩
    show WR_VAR_Y c ≤ 31 ∨ WR_VAR_Y c = 32 ∧ _
    rcases this with h | h
    · exact Or.inl h
    · by_cases h32 : WR_VAR_Y c = 32
      · exact Or.inr ⟨h32, h⟩
      · exact Or.inl (by omega)
  meaning b s i hi h := meaning_has hF hi (h.le (by omega))
  attr b s i hi ha h := by
    have hns : ¬ safe := by
      intro hs
      simp [Bitmaps.active, (h.mode hs).current] at ha
    refine Res.Has.of (fun r _ => ?_) fun hs => absurd hs hns
    have hk : Kept safe C.E l (b + l.room) { s with bitmaps := r.2 } :=
      ⟨h.caches, h.out, fun hs => absurd hs hns, fun hs => absurd hs hns⟩
    exact attr_has hF hi hk hns _
  refval b s c _ h := refval_has (h.le (by omega)) c
  simple b s c hc hf _ _ h := simple_has hF (h.le (by omega)) (fun hs => (hc hs).self.1.2 hf)
    fun hs => (hc hs).self.2 hf

omit hi in
/-- Decoding a subset. -/
theorem decodeSubset_has (hl : safe → l.Fair)
    (h12 : safe → Tame C.E l C.btable (WR_VAR 0 31 12))
    (h21 : safe → Tame C.E l C.btable (WR_VAR 0 31 21)) {ops : List Varcode} {depth : Nat}
    (ho : safe → ∀ c, StandsFor C.dtable ops c → Tame C.E l C.btable c)
    (hd : safe → NestedWithin C.dtable depth ops) :
    ∃ K, ∀ (add_undef : Bool) (caches : TableCaches) (i : Input) (b : Nat), caches.Made C.E →
      i.Lasts safe (b + K) →
      (decodeSubset C add_undef depth ops caches i).Has safe (fun r =>
        (∀ v ∈ r.1, v.Sane C.E) ∧ r.2.1.Made C.E ∧ r.2.2.Lasts safe b) := by
  obtain ⟨K, hK⟩ := (care hF hl h12 h21).run depth ops (fun c hc hs d hdd => ho hs d (by
    induction hdd with
    | here h => rw [List.mem_singleton.mp h]; exact .here hc
    | inside _ f q m ih => exact .inside ih f q m)) hd
  refine ⟨K, fun au caches i b hc hi => ?_⟩
  unfold decodeSubset
  refine Res.Has.bind (hK b (start au caches i) ⟨hc, by simp [start, Interp.new], hi, fun _ => ?_⟩)
    fun s' _ hs' => ⟨hs'.out, hs'.caches, hs'.lasts⟩
  refine ⟨⟨?_, ?_, ?_, ?_, ?_⟩, rfl, rfl, rfl, fun h => absurd rfl h, by simp [start, Interp.new]⟩
  · simp [start, Interp.new]
  · simp [start, Interp.new]
  · simp [start, Interp.new]
  · simp [start, Interp.new]
  · simp [start, Interp.new]

omit hi in
/-- Decoding all the subsets. -/
theorem decodeSubsets_has (hl : safe → l.Fair)
    (h12 : safe → Tame C.E l C.btable (WR_VAR 0 31 12))
    (h21 : safe → Tame C.E l C.btable (WR_VAR 0 31 21)) {ops : List Varcode} {depth : Nat}
    (ho : safe → ∀ c, StandsFor C.dtable ops c → Tame C.E l C.btable c)
    (hd : safe → NestedWithin C.dtable depth ops) :
    ∃ K, ∀ (add_undef : Bool) (n : Nat) (caches : TableCaches) (i : Input) (b : Nat),
      caches.Made C.E → i.Lasts safe (b + n * K) →
      (decodeSubsets C add_undef depth ops n caches i).Has safe (fun r =>
        (∀ vs ∈ r.1, ∀ v ∈ vs, v.Sane C.E) ∧ r.2.1.Made C.E ∧ r.2.2.Lasts safe b) := by
  obtain ⟨K, hK⟩ := decodeSubset_has hF hl h12 h21 ho hd
  refine ⟨K, fun au n => ?_⟩
  induction n with
  | zero =>
    intro caches i b hc hi
    exact ⟨by simp, hc, by simpa using hi⟩
  | succ n ih =>
    intro caches i b hc hi
    unfold decodeSubsets
    rw [Nat.succ_mul, ← Nat.add_assoc] at hi
    refine Res.Has.bind (hK au caches i (b + n * K) hc hi) fun r _ hr => ?_
    refine Res.Has.bind (ih r.2.1 r.2.2 b hr.2.1 hr.2.2) fun r' _ hr' => ⟨?_, hr'.2⟩
    intro vs hvs
    rcases List.mem_cons.mp hvs with rfl | hvs
    · exact hr.1
    · exact hr'.1 vs hvs

end Decoder

end Wreport
