import Verif.Spec.Python
import Verif.Spec.Sane
import Verif.Lemmas.Sane
import Verif.Lemmas.Notes
import Verif.Props.VarNum
import Verif.Props.Format
import Verif.Props.Varinfo

/-!
Python calls on sane variables.
-/

namespace Wreport.Py

open Spec

theorem mk_toArray (b : List Byte) : (⟨b.toArray⟩ : ByteArray) = b.toByteArray := by
  ext1
  simp

theorem decode_encode (s : List Char) : decode (encode s) = some s := by
  unfold decode encode
  rw [mk_toArray]
  have : (s.flatMap String.utf8EncodeChar).toByteArray = s.utf8Encode := rfl
  rw [this, List.utf8Decode?_utf8Encode]
  simp

theorem decode_iff {b : List Byte} {s : List Char} : decode b = some s ↔ encode s = b := by
  constructor
  · intro h
    unfold decode at h
    rw [mk_toArray] at h
    obtain ⟨a, ha, rfl⟩ := Option.map_eq_some_iff.mp h
    have := ByteArray.utf8Encode_get_utf8Decode? (b := b.toByteArray) (h := by rw [ha]; rfl)
    simp only [ha, Option.get_some] at this
    have h2 : (encode a.toList).toByteArray = b.toByteArray := this
    have h3 := congrArg ByteArray.data h2
    simpa using h3
  · rintro rfl
    exact decode_encode s

/-! ## Values -/

theorem assign_default {v : Var} {i : Int} :
    v.assign_i_checked .default i =
      if i < v.info.imin ∨ v.info.imax < i then (v.unset, .err .domain) else (v.putInt i, .ok ()) := by
  unfold Var.assign_i_checked Opts.default
  simp

/-- Reading a number that was stored. -/
theorem enq_putInt {E : Env} (hE : IsRounding E.fl) {info : Varinfo} (hm : info.Made E)
    (hn : info.IsNum) (i : Int) :
    ∃ r, (enq E ((Var.new info).putInt i)).done = .returned r ∧ KeptInt info i r := by
  unfold enq var_value_to_python KeptInt
  rcases hn with ht | ht
  · have e : ((Var.new info).putInt i).toVarCore.info.type = .integer := ht
    rw [e, ht]
    refine ⟨.int i, ?_, rfl⟩
    have := enqi_putInt (v := Var.new info) (Or.inl ht) i
    rw [this]
    rfl
  · have e : ((Var.new info).putInt i).toVarCore.info.type = .decimal := ht
    rw [e, ht]
    obtain ⟨d1, -⟩ := hm.range (Or.inr ht)
    have hsc := decode_decimal_scale d1
    have hd := enqd_num (E := E) (v := ((Var.new info).putInt i).toVarCore) (Or.inr ht) rfl rfl
    rw [if_neg (by rw [e]; simp)] at hd
    have e2 : ((Var.new info).putInt i).toVarCore.info = info := rfl
    rw [e2] at hd
    have hv := decode_decimal_eq E info i hsc
    rw [hv] at hd
    have herr := decode_decimal_err hE hv
    rw [hd]
    refine ⟨_, rfl, _, rfl, ?_⟩
    have hp : (0 : ℚ) < (10 : ℚ) ^ info.scale := by positivity
    have e3 : decimalValue info.scale i * (10 : ℚ) ^ info.scale = i := by
      unfold decimalValue
      rw [mul_assoc, ← zpow_add₀ (by norm_num)]
      simp
    generalize (if info.scale = 0 then (i : ℚ) else E.fl (decimalValue info.scale i)) = q at *
    have e4 : q * (10 : ℚ) ^ info.scale - i =
        (q - decimalValue info.scale i) * (10 : ℚ) ^ info.scale := by rw [sub_mul, e3]
    rw [e4, abs_mul, abs_of_pos hp]
    calc _ ≤ (|decimalValue info.scale i| / 2 ^ 53) * (10 : ℚ) ^ info.scale :=
          mul_le_mul_of_nonneg_right herr hp.le
      _ = |decimalValue info.scale i * (10 : ℚ) ^ info.scale| / 2 ^ 53 := by
          rw [abs_mul, abs_of_pos hp]; ring
      _ = _ := by rw [e3]

theorem keptFloat_of {info : Varinfo} {x : ℚ} {i : Int} {r : Obj} (ht : info.type = .decimal)
    (h : |x * (10 : ℚ) ^ info.scale - i| ≤ 1 / 2 + |x * (10 : ℚ) ^ info.scale| / 2 ^ 53)
    (hk : KeptInt info i r) : KeptFloat info x r := by
  unfold KeptInt at hk
  unfold KeptFloat
  rw [ht] at hk ⊢
  obtain ⟨q, rfl, hq⟩ := hk
  refine ⟨q, rfl, ?_⟩
  generalize x * (10 : ℚ) ^ info.scale = X at *
  generalize q * (10 : ℚ) ^ info.scale = Q at *
  have hi : |(i : ℚ)| ≤ |X| + (1 / 2 + |X| / 2 ^ 53) := by
    have : (i : ℚ) = X - (X - i) := by ring
    rw [this]
    exact (abs_sub _ _).trans (by linarith)
  have h1 : |Q - X| ≤ |Q - i| + |X - i| := by
    have : Q - X = (Q - i) - (X - i) := by ring
    rw [this]
    exact abs_sub _ _
  have h0 : 0 ≤ |X| := abs_nonneg X
  have h2 : |(i : ℚ)| / 2 ^ 53 ≤ (2 * |X| + 1) / 2 ^ 53 := by
    apply div_le_div_of_nonneg_right _ (by positivity)
    have : |X| / 2 ^ 53 ≤ |X| / 2 := by
      apply div_le_div_of_nonneg_left h0 (by norm_num) (by norm_num)
    linarith
  have h3 : (2 * |X| + 1) / 2 ^ 53 + |X| / 2 ^ 53 = (3 * |X| + 1) / 2 ^ 53 := by ring
  linarith

/-- Reading a text that was stored. -/
theorem enq_putMem {E : Env} {info : Varinfo} (ht : info.type = .string) {m : Mem} {s : List Char}
    (hm : cstr m = .ok (encode s)) :
    (enq E ((Var.new info).putMem m)).done = .returned (.str s) := by
  unfold enq var_value_to_python
  have e : ((Var.new info).putMem m).toVarCore.info.type = .string := ht
  have e2 : ((Var.new info).putMem m).toVarCore.enqc E = .ok m := by
    unfold VarCore.enqc
    rw [e]
    rfl
  rw [e, e2]
  simp only [Res.ok_bind, hm, textCaught, strToPython, decode_encode]
  rfl

/-! ## Texts that are UTF-8 -/

theorem encode_append (s t : List Char) : encode (s ++ t) = encode s ++ encode t := by
  unfold encode
  rw [List.flatMap_append]

/-- The bytes are the UTF-8 form of a string. -/
def Utf8 (b : List Byte) : Prop := ∃ s, encode s = b

theorem Utf8.append {a b : List Byte} (ha : Utf8 a) (hb : Utf8 b) : Utf8 (a ++ b) := by
  obtain ⟨s, rfl⟩ := ha
  obtain ⟨t, rfl⟩ := hb
  exact ⟨s ++ t, encode_append s t⟩

theorem utf8_char : ∀ n : Fin 128, String.utf8EncodeChar (Char.ofNat n.val) = [UInt8.ofNat n.val] := by
  decide +kernel

theorem utf8_small {l : List Byte} (h : ∀ b ∈ l, b.toNat < 128) : Utf8 l := by
  induction l with
  | nil => exact ⟨[], rfl⟩
  | cons b l ih =>
    obtain ⟨s, hs⟩ := ih fun x hx => h x (List.mem_cons_of_mem _ hx)
    refine ⟨Char.ofNat b.toNat :: s, ?_⟩
    have := utf8_char ⟨b.toNat, h b (by simp)⟩
    simp only [UInt8.ofNat_toNat] at this
    unfold encode at hs ⊢
    rw [List.flatMap_cons, this, hs]
    rfl

theorem utf8_decimal {s : List Byte} {n : Nat} (h : IsDecimalNat s n) : Utf8 s :=
  utf8_small fun b hb => by have := h.2.1 b hb; omega

theorem utf8_decimalInt {s : List Byte} {i : Int} (h : IsDecimalInt s i) : Utf8 s := by
  unfold IsDecimalInt at h
  split at h
  · obtain ⟨t, rfl, h⟩ := h
    exact Utf8.append (a := [45]) (utf8_small (by decide)) (utf8_decimal h)
  · exact utf8_decimal h

theorem small_decDigits (n : Nat) : ∀ b ∈ Crex.decDigits n, b.toNat < 128 := fun b hb => by
  have := (decDigits_decimal n).2.1 b hb
  omega

theorem small_fmtF (p : Nat) (q : ℚ) : ∀ b ∈ fmtF p q, b.toNat < 128 := by
  intro b hb
  unfold fmtF at hb
  simp only [List.mem_append] at hb
  rcases hb with (hb | hb) | hb
  · split at hb
    · simp at hb; subst hb; decide
    · cases hb
  · exact small_decDigits _ b hb
  · split at hb
    · cases hb
    · rcases List.mem_cons.mp hb with rfl | hb
      · decide
      · unfold Crex.fmtU at hb
        rcases List.mem_append.mp hb with hb | hb
        · obtain ⟨-, rfl⟩ := List.mem_replicate.mp hb
          decide
        · exact small_decDigits _ b hb

theorem utf8_varcode (c : Varcode) : Utf8 (varcode_format c) := by
  apply utf8_small
  unfold varcode_format
  intro b hb
  have dc : ∀ n, (digitChar n).toNat < 128 := fun n => by rw [digitChar_toNat]; omega
  simp only [List.mem_cons, List.not_mem_nil, or_false] at hb
  rcases hb with rfl | rfl | rfl | rfl | rfl | rfl
  · split <;> decide
  all_goals exact dc _

theorem textCaught_ok {b : List Byte} :
    (∃ s, encode s = b ∧ (textCaught (.ok b)).done = .returned (.str s)) ∨
    ((∀ s, encode s ≠ b) ∧ (textCaught (.ok b)).done = .raised .unicodeDecode) := by
  unfold textCaught strToPython
  cases h : decode b with
  | some s => exact Or.inl ⟨s, decode_iff.mp h, by simp only [h]; rfl⟩
  | none =>
    refine Or.inr ⟨?_, by simp only [h]; rfl⟩
    rintro s rfl
    rw [decode_encode] at h
    cases h

theorem textCaught_utf8 {b : List Byte} (h : Utf8 b) : ∃ s, (textCaught (.ok b)).done = .returned (.str s) := by
  obtain ⟨t, ht⟩ := h
  rcases textCaught_ok (b := b) with ⟨s, -, h⟩ | ⟨h, -⟩
  · exact ⟨s, h⟩
  · exact absurd ht (h t)

/-! ## Reading -/

variable {E : Env} {T : Varcode → Varinfo}

theorem type_cases {info : Varinfo} (h : info.type ≠ .binary) : info.IsNum ∨ info.type = .string := by
  unfold Varinfo.IsNum
  cases ht : info.type <;> simp_all

theorem sane_text {v : VarCore} (h : v.Sane E) (ht : v.info.type = .string) (hs : v.isset = true) :
    ∃ t m, v.view = some (.text t) ∧ v.enqc E = .ok m ∧ cstr m = .ok t := by
  obtain ⟨tn, -⟩ | ⟨-, m, s, ci, hl, hcs, hh⟩ | ⟨tn, -⟩ := WF_set h.wf hs
  · rcases tn with tn | tn <;> rw [ht] at tn <;> cases tn
  · refine ⟨s, m, hh, ?_, hcs⟩
    unfold VarCore.enqc
    simp [hs, ht, VarCore.ptr, ci]
  · rw [ht] at tn; cases tn

theorem enqi_unset {v : VarCore} (h : v.isset = false) : v.enqi = .err .notfound := by
  unfold VarCore.enqi; simp [h]

theorem enqd_unset {v : VarCore} (h : v.isset = false) : v.enqd E = .err .notfound := by
  unfold VarCore.enqd; simp [h]

theorem enqc_unset {v : VarCore} (h : v.isset = false) : v.enqc E = .err .notfound := by
  unfold VarCore.enqc; simp [h]

theorem enqi_string {v : VarCore} (h : v.isset = true) (ht : v.info.type = .string) :
    v.enqi = .err .type := by
  unfold VarCore.enqi; simp [h, ht]

theorem enqd_string {v : VarCore} (h : v.isset = true) (ht : v.info.type = .string) :
    v.enqd E = .err .type := by
  unfold VarCore.enqd; simp [h, ht]

theorem enqc_done {v : Var} (h : Held E T v) :
    (∃ r, (enqc E v).done = .returned r) ∨ (v.isset = false ∧ (enqc E v).done = .raised .key) ∨
      (NotUtf8 v ∧ (enqc E v).done = .raised .unicodeDecode) := by
  unfold enqc
  cases hs : v.isset with
  | false =>
    right; left
    rw [enqc_unset (v := v.toVarCore) hs]
    exact ⟨rfl, rfl⟩
  | true =>
    rcases type_cases h.own.text with hn | ht
    · obtain ⟨i, hc, hi, hr⟩ := h.sane.core.word hn
      have hlow := h.own.low hn
      obtain ⟨s, -, h2, m, h3, h4⟩ := C08_text_is_decimal E v i hn hs hc hi (by
        have := (hr hs).1
        have e : v.toVarCore.info = v.info := rfl
        rw [e] at this
        omega)
      rw [h3, Res.ok_bind, h4]
      obtain ⟨t, ht⟩ := textCaught_utf8 (utf8_decimalInt h2)
      exact Or.inl ⟨_, ht⟩
    · obtain ⟨t, m, h1, h2, h3⟩ := sane_text h.sane.core ht hs
      rw [h2, Res.ok_bind, h3]
      rcases textCaught_ok (b := t) with ⟨s, -, h⟩ | ⟨h, h'⟩
      · exact Or.inl ⟨_, h⟩
      · exact Or.inr (Or.inr ⟨⟨t, h1, h⟩, h'⟩)

theorem to_python_done {v : Var} (h : Held E T v) :
    (∃ r, (var_value_to_python E v.toVarCore).done = .returned r) ∨
      (v.isset = false ∧ (var_value_to_python E v.toVarCore).done = .raised .key) ∨
      (NotUtf8 v ∧ (var_value_to_python E v.toVarCore).done = .raised .unicodeDecode) := by
  unfold var_value_to_python
  cases ht : v.info.type with
  | binary => exact absurd ht h.own.text
  | string =>
    exact enqc_done h
  | integer =>
    cases hs : v.isset with
    | false =>
      rw [enqi_unset (v := v.toVarCore) hs]
      exact Or.inr (Or.inl ⟨rfl, rfl⟩)
    | true =>
      obtain ⟨i, hc, -⟩ := h.sane.core.word (Or.inl ht)
      rw [enqi_num (v := v.toVarCore) (Or.inl ht) hc hs]
      exact Or.inl ⟨_, rfl⟩
  | decimal =>
    cases hs : v.isset with
    | false =>
      rw [enqd_unset (v := v.toVarCore) hs]
      exact Or.inr (Or.inl ⟨rfl, rfl⟩)
    | true =>
      obtain ⟨i, hc, -⟩ := h.sane.core.word (Or.inr ht)
      obtain ⟨d, h1, -⟩ := enqd_decode (v := v.toVarCore) h.own.made (Or.inr ht) hs hc
      rw [h1]
      exact Or.inl ⟨_, rfl⟩

theorem enqi_done {v : Var} (h : Held E T v) :
    (∃ r, (enqi v).done = .returned r) ∨ (v.isset = false ∧ (enqi v).done = .raised .key) ∨
      (v.isset = true ∧ ¬ v.info.IsNum ∧ (enqi v).done = .raised .type) := by
  unfold enqi
  cases hs : v.isset with
  | false =>
    rw [enqi_unset (v := v.toVarCore) hs]
    exact Or.inr (Or.inl ⟨rfl, rfl⟩)
  | true =>
    rcases type_cases h.own.text with hn | ht
    · obtain ⟨i, hc, -⟩ := h.sane.core.word hn
      rw [enqi_num (v := v.toVarCore) hn hc hs]
      exact Or.inl ⟨_, rfl⟩
    · rw [enqi_string (v := v.toVarCore) hs ht]
      exact Or.inr (Or.inr ⟨rfl, string_not_num ht, rfl⟩)

theorem enqd_done {v : Var} (h : Held E T v) :
    (∃ r, (enqd E v).done = .returned r) ∨ (v.isset = false ∧ (enqd E v).done = .raised .key) ∨
      (v.isset = true ∧ ¬ v.info.IsNum ∧ (enqd E v).done = .raised .type) := by
  unfold enqd
  cases hs : v.isset with
  | false =>
    rw [enqd_unset (v := v.toVarCore) hs]
    exact Or.inr (Or.inl ⟨rfl, rfl⟩)
  | true =>
    rcases type_cases h.own.text with hn | ht
    · obtain ⟨i, hc, -⟩ := h.sane.core.word hn
      obtain ⟨d, h1, -⟩ := enqd_decode (v := v.toVarCore) h.own.made hn hs hc
      rw [h1]
      exact Or.inl ⟨_, rfl⟩
    · rw [enqd_string (v := v.toVarCore) hs ht]
      exact Or.inr (Or.inr ⟨rfl, string_not_num ht, rfl⟩)

/-- What the text of a variable is made of. -/
theorem format_text {v : Var} (h : Held E T v) {u : List Byte} (hu : Utf8 u) :
    ∃ b, v.format E u = .ok b ∧ (Utf8 b ∨ (NotUtf8 v ∧ v.isset = true ∧ v.info.type = .string)) := by
  unfold VarCore.format
  cases hs : v.isset with
  | false => exact ⟨u, rfl, Or.inl hu⟩
  | true =>
    rcases type_cases h.own.text with hn | ht
    · obtain ⟨i, hc, -⟩ := h.sane.core.word hn
      obtain ⟨d, h1, -⟩ := enqd_decode (v := v.toVarCore) h.own.made hn hs hc
      have : ∃ b, (do let s ← v.toVarCore.formatNumber E; return s.take 19 : Res (List Byte)) = .ok b ∧
          ∀ x ∈ b, x.toNat < 128 := by
        unfold VarCore.formatNumber
        rw [h1]
        exact ⟨_, rfl, fun x hx => small_fmtF _ _ x (List.mem_of_mem_take hx)⟩
      obtain ⟨b, hb, hb2⟩ := this
      refine ⟨b, ?_, Or.inl (utf8_small hb2)⟩
      rw [← hb]
      rcases hn with ht | ht <;> simp [ht]
    · obtain ⟨t, m, h1, h2, h3⟩ := sane_text h.sane.core ht hs
      unfold VarCore.enqc at h2
      have hs' : v.toVarCore.isset = true := hs
      have ht' : v.toVarCore.info.type = .string := ht
      simp only [hs', ht', Bool.not_true, Bool.false_eq_true, if_false] at h2
      refine ⟨t, ?_, ?_⟩
      · simp [ht, h2, h3]
      · by_cases hx : Utf8 t
        · exact Or.inl hx
        · exact Or.inr ⟨⟨t, h1, fun s hs => hx ⟨s, hs⟩⟩, rfl, ht⟩

theorem text_done {v : Var} {b : List Byte} (h : Utf8 b ∨ NotUtf8 v) :
    (∃ r, (textCaught (.ok b)).done = .returned r) ∨
      (NotUtf8 v ∧ (textCaught (.ok b)).done = .raised .unicodeDecode) := by
  rcases textCaught_ok (b := b) with ⟨s, -, h'⟩ | ⟨h1, h2⟩
  · exact Or.inl ⟨_, h'⟩
  · rcases h with ⟨s, hs⟩ | h
    · exact absurd hs (h1 s)
    · exact Or.inr ⟨h, h2⟩

theorem str_done {v : Var} (h : Held E T v) :
    (∃ r, (str E v).done = .returned r) ∨ (NotUtf8 v ∧ (str E v).done = .raised .unicodeDecode) := by
  obtain ⟨b, h1, h2⟩ := format_text h (u := ascii "None") (utf8_small (by decide +kernel))
  unfold str
  rw [h1]
  exact text_done (h2.imp_right And.left)

theorem argText_done (o : Obj) :
    (∃ s, argText o = .ok s ∧ Utf8 s ∧ ∃ t, o = .str t ∧ encode t = s) ∨
      (∃ e, argText o = .error e ∧ ArgRaises o e) := by
  unfold argText ArgRaises
  cases o with
  | str s =>
    simp only
    split
    · exact Or.inr ⟨_, rfl, ‹_›, rfl⟩
    · exact Or.inl ⟨_, rfl, ⟨s, rfl⟩, s, rfl, rfl⟩
  | surrogates => exact Or.inr ⟨_, rfl, rfl⟩
  | int => exact Or.inr ⟨_, rfl, rfl⟩
  | float => exact Or.inr ⟨_, rfl, rfl⟩
  | bytes => exact Or.inr ⟨_, rfl, rfl⟩
  | none => exact Or.inr ⟨_, rfl, rfl⟩
  | other => exact Or.inr ⟨_, rfl, rfl⟩

theorem format_done {v : Var} (h : Held E T v) (o : Obj) :
    (∃ r, (format E v o).done = .returned r) ∨ ∃ e, (format E v o).done = .raised e ∧
      (ArgRaises o e ∨ (NotUtf8 v ∧ e = .unicodeDecode)) := by
  unfold format
  rcases argText_done o with ⟨s, h1, h2, -⟩ | ⟨e, h1, h2⟩
  · rw [h1]
    obtain ⟨b, h3, h4⟩ := format_text h h2
    simp only
    rw [h3]
    rcases text_done (h4.imp_right And.left) with h | ⟨h, h'⟩
    · exact Or.inl h
    · exact Or.inr ⟨_, h', Or.inr ⟨h, rfl⟩⟩
  · rw [h1]
    exact Or.inr ⟨e, rfl, Or.inl h2⟩

theorem repr_done {v : Var} (h : Held E T v) :
    (∃ r, (repr E v).done = .returned r) ∨ (NotUtf8 v ∧ (repr E v).done = .raised .unicodeDecode) := by
  have key : ∃ b, reprValue E v = .ok b ∧ (Utf8 b ∨ NotUtf8 v) := by
    unfold reprValue
    cases hs : v.isset with
    | false => exact ⟨_, rfl, Or.inl (utf8_small (by decide +kernel))⟩
    | true =>
      obtain ⟨b, h1, h2⟩ := format_text h (u := []) ⟨[], rfl⟩
      simp only [if_true, h1, Res.ok_bind]
      have q : Utf8 (ascii "'") := utf8_small (by decide +kernel)
      cases ht : v.info.type with
      | binary => exact absurd ht h.own.text
      | integer => exact ⟨_, rfl, h2.imp_right And.left⟩
      | decimal => exact ⟨_, rfl, h2.imp_right And.left⟩
      | string =>
        exact ⟨_, rfl, h2.elim (fun h => Or.inl ((q.append h).append q)) fun h => Or.inr h.1⟩
  obtain ⟨b, h1, h2⟩ := key
  unfold repr
  rw [h1]
  apply text_done
  refine h2.imp_left fun h2 => ?_
  exact (((Utf8.append (utf8_small (by decide +kernel)) (utf8_varcode _)).append
    (utf8_small (by decide +kernel))).append h2).append (utf8_small (by decide +kernel))

/-! ## Making and changing variables -/

theorem default_sane : Opts.default.Sane E where
  clamp := rfl
  int := by intro h hh; cases hh
  double := by intro h hh; cases hh

theorem default_safe : Opts.default.Safe := by intro h hh; cases hh

theorem _root_.Wreport.Spec.Held.new {info : Varinfo} (h : FromTable E T info) : Held E T (Var.new info) :=
  ⟨Var.Sane.new h.made, h, by simp [Var.new]⟩

theorem _root_.Wreport.Spec.Held.of {v w : Var} (h : Held E T v) (hs : w.Sane E) (hi : w.info = v.info)
    (ha : w.attrs = v.attrs) : Held E T w :=
  ⟨hs, by rw [hi]; exact h.own, by rw [ha]; exact h.attrs⟩

theorem assign_default_attrs {v : Var} {i : Int} :
    (v.assign_i_checked .default i).1.attrs = v.attrs ∧
      ((v.assign_i_checked .default i).2 = .ok () ∨
        (v.assign_i_checked .default i).2 = .err .domain) := by
  rw [assign_default]
  split
  · exact ⟨rfl, Or.inr rfl⟩
  · exact ⟨rfl, Or.inl rfl⟩

theorem assign_d_default (hE : IsRounding E.fl) {v : Var} (hm : v.info.Made E)
    (hn : v.info.IsNum) (d : Dbl) :
    (v.assign_d_checked E .default d).1.attrs = v.attrs ∧
      ((v.assign_d_checked E .default d).2 = .ok () ∨
        (v.assign_d_checked E .default d).2 = .err .domain) := by
  unfold Var.assign_d_checked
  split
  · exact ⟨rfl, Or.inr rfl⟩
  · split
    · exact ⟨rfl, Or.inr rfl⟩
    · next h1 h2 =>
      push Not at h2
      obtain ⟨x, i, -, -, hp, -⟩ := putDbl_in_range hE hm hn h1 (by simpa using h2.1) (by simpa using h2.2)
      rw [hp]
      exact ⟨rfl, Or.inl rfl⟩

theorem setNumText_default {v : Var} (h : v.Sane E) (hn : v.info.IsNum) (s : List Byte) :
    (v.setNumText .default s).1.Sane E ∧ (v.setNumText .default s).1.info = v.info ∧
      (v.setNumText .default s).1.attrs = v.attrs ∧
      ((v.setNumText .default s).2 = .ok () ∨ (v.setNumText .default s).2 = .err .domain) := by
  unfold Var.setNumText
  split
  · exact ⟨h.unset, rfl, rfl, Or.inl rfl⟩
  · obtain ⟨h1, h2⟩ := assign_i_sane default_sane h hn (strToInt32 s)
    obtain ⟨h3, h4⟩ := assign_default_attrs (v := v) (i := strToInt32 s)
    exact ⟨h1, h2, h3, h4⟩

theorem assign_c_attrs {v : Var} {val : Mem} {n : Nat} : (v.assign_c_checked val n).1.attrs = v.attrs := by
  unfold Var.assign_c_checked Var.ofRes
  split
  · next w h =>
    obtain ⟨m, -, h⟩ := Res.bind_eq_ok.mp h
    obtain ⟨s, -, h⟩ := Res.bind_eq_ok.mp h
    obtain ⟨m', -, h⟩ := Res.bind_eq_ok.mp h
    cases h
    rfl
  · rfl
  · rfl

/-- The end of `var_value_from_python` on a fresh variable. -/
theorem from_python_done (hE : IsRounding E.fl) {info : Varinfo} (h : FromTable E T info) (o : Obj)
    (ho : ∀ i, o = .int i → -9223372036854775808 ≤ i ∧ i ≤ 9223372036854775807) :
    Held E T (var_value_from_python E .default o (Var.new info)).1 ∧
      ((var_value_from_python E .default o (Var.new info)).2 = .ret (some ()) none ∨
        ∃ e, (var_value_from_python E .default o (Var.new info)).2 = .ret none (some e) ∧
          Allows [] (.make info (some o)) e) := by
  have hv := Held.new h
  have ev : (Var.new info).info = info := rfl
  have num := type_cases h.text
  have fin : ∀ {v : Var} {r : Res Unit}, v.Sane E → v.info = info → v.attrs = [] →
      (r = .ok () ∨ (r = .err .domain ∧ info.IsNum)) → info.IsNum →
      Held E T v ∧ (caught none r = .ret (some ()) none ∨
        ∃ e, caught none r = .ret none (some e) ∧ info.IsNum ∧ e = .overflow) := by
    intro v r h1 h2 h3 h4 h5
    refine ⟨hv.of h1 h2 h3, ?_⟩
    rcases h4 with rfl | ⟨rfl, -⟩
    · exact Or.inl rfl
    · exact Or.inr ⟨_, rfl, h5, rfl⟩
  cases o with
  | none => exact ⟨hv, Or.inr ⟨_, rfl, rfl⟩⟩
  | other => exact ⟨hv, Or.inr ⟨_, rfl, rfl⟩⟩
  | surrogates => exact ⟨hv, Or.inr ⟨_, rfl, rfl⟩⟩
  | int i =>
    have hl : asLong i = (i, none) := by
      unfold asLong
      rw [if_pos (ho i rfl)]
    unfold var_value_from_python
    simp only [hl]
    rcases num with hn | ht
    · rw [seti_num (v := Var.new info) hn]
      obtain ⟨s1, s2⟩ := assign_i_sane default_sane hv.sane hn (wrapInt i)
      obtain ⟨s3, s4⟩ := assign_default_attrs (v := Var.new info) (i := wrapInt i)
      obtain ⟨f1, f2⟩ := fin s1 s2 s3 (s4.imp_right fun h => ⟨h, hn⟩) hn
      exact ⟨f1, f2.imp_right fun ⟨e, h1, h2⟩ => ⟨e, h1, Or.inr h2⟩⟩
    · have : (Var.new info).seti .default (wrapInt i) = (Var.new info, .err .type) := by
        unfold Var.seti
        rw [ev, ht]
      rw [this]
      exact ⟨hv, Or.inr ⟨_, rfl, Or.inl ⟨string_not_num ht, rfl⟩⟩⟩
  | float d =>
    unfold var_value_from_python
    simp only
    rcases num with hn | ht
    · obtain ⟨s1, s2⟩ := setd_sane hE default_sane hv.sane d
      have s34 : ((Var.new info).setd E .default d).1.attrs = [] ∧
          (((Var.new info).setd E .default d).2 = .ok () ∨ ((Var.new info).setd E .default d).2 = .err .domain) := by
        unfold Var.setd
        rcases hn with ht | ht <;> rw [ev, ht] <;> simp only
        · exact assign_default_attrs
        · exact assign_d_default hE (v := Var.new info) h.made (Or.inr ht) d
      obtain ⟨f1, f2⟩ := fin s1 s2 s34.1 (s34.2.imp_right fun h => ⟨h, hn⟩) hn
      exact ⟨f1, f2.imp_right fun ⟨e, h1, h2⟩ => ⟨e, h1, Or.inr h2⟩⟩
    · have : (Var.new info).setd E .default d = (Var.new info, .err .type) := by
        unfold Var.setd
        rw [ev, ht]
      rw [this]
      exact ⟨hv, Or.inr ⟨_, rfl, Or.inl ⟨string_not_num ht, rfl⟩⟩⟩
  | str s =>
    unfold var_value_from_python
    simp only
    rcases num with hn | ht
    · have : (Var.new info).sets .default (encode s) =
          (Var.new info).setNumText .default ((encode s).takeWhile (· ≠ 0)) := by
        unfold Var.sets
        rcases hn with ht | ht <;> rw [ev, ht]
      rw [this]
      obtain ⟨s1, s2, s3, s4⟩ := setNumText_default hv.sane hn ((encode s).takeWhile (· ≠ 0))
      exact fin s1 s2 s3 (s4.imp_right fun h => ⟨h, hn⟩) hn
    · have : (Var.new info).sets .default (encode s) =
          (Var.new info).assign_c_checked (c_str (encode s)) (encode s).length := by
        unfold Var.sets
        rw [ev, ht]
      rw [this]
      obtain ⟨s1, s2, s3⟩ := assign_c_sane hv.sane ht (encode s) (encode s).length
      refine ⟨hv.of s2 s3 assign_c_attrs, Or.inl ?_⟩
      rw [s1]
      rfl
  | bytes b =>
    unfold var_value_from_python
    simp only
    rcases num with hn | ht
    · have : (Var.new info).setc .default (c_str b) =
          (Var.new info).setNumText .default (b.takeWhile (· ≠ 0)) := by
        unfold Var.setc
        have : cstr (c_str b) = .ok (b.takeWhile (· ≠ 0)) := by
          obtain ⟨r, hr⟩ := terminated_eq (s := b)
          rw [hr]
          exact cstr_c_str _ r (nulFree_takeWhile b)
        rcases hn with ht | ht <;> rw [ev, ht, this]
      rw [this]
      obtain ⟨s1, s2, s3, s4⟩ := setNumText_default hv.sane hn (b.takeWhile (· ≠ 0))
      exact fin s1 s2 s3 (s4.imp_right fun h => ⟨h, hn⟩) hn
    · have : (Var.new info).setc .default (c_str b) =
          (Var.new info).assign_c_checked (c_str b) info.len := by
        unfold Var.setc
        rw [ev, ht]
      rw [this]
      obtain ⟨s1, s2, s3⟩ := assign_c_sane hv.sane ht b info.len
      refine ⟨hv.of s2 s3 assign_c_attrs, Or.inl ?_⟩
      rw [s1]
      rfl

theorem _root_.Wreport.Spec.Held.copy {v : Var} (h : Held E T v) : ∃ w, v.copy = .ok w ∧ Held E T w ∧
    w.info = v.info ∧ w.toVarCore.view = v.toVarCore.view ∧
    w.attrs.map (fun a => (a.info, a.isset, a.view)) = v.attrs.map (fun a => (a.info, a.isset, a.view)) := by
  obtain ⟨w, w1, w2, w3⟩ := copy_sane h.sane
  obtain ⟨w', w1', -, -, -, w5, w6⟩ := copy_ok h.sane.wf
  rw [w1] at w1'
  cases w1'
  refine ⟨w, w1, ⟨w2, by rw [w3]; exact h.own, ?_⟩, w3, w5, w6⟩
  intro a ha
  have : (a.info, a.isset, a.view) ∈ w.attrs.map (fun a => (a.info, a.isset, a.view)) :=
    List.mem_map_of_mem ha
  rw [w6] at this
  obtain ⟨b, hb, e⟩ := List.mem_map.mp this
  have e1 : b.info = a.info := (Prod.mk.inj e).1
  rw [← e1]
  exact h.attrs b hb

theorem _root_.Wreport.Spec.Held.setaMove {v a : Var} (hv : Held E T v) (ha : Held E T a) : Held E T (v.setaMove a) := by
  refine ⟨setaMove_sane hv.sane ha.sane.core, hv.own, ?_⟩
  intro b hb
  rcases setaList_mem hb with rfl | hb
  · exact ha.own
  · exact hv.attrs b hb

theorem _root_.Wreport.Spec.Held.unseta {v : Var} (hv : Held E T v) (c : Varcode) : Held E T (v.unseta c) := by
  have hsub := unsetaList_sublist c v.attrs
  refine ⟨⟨hv.sane.core, ?_, hv.sane.sorted.sublist hsub⟩, hv.own, ?_⟩
  · exact fun a ha => hv.sane.attrs a (hsub.subset ha)
  · exact fun a ha => hv.attrs a (hsub.subset ha)

/-- An attribute with the ones after it. -/
theorem attrFrom_eq {l : List VarCore} (hs : l.Pairwise (fun a b => a.code < b.code)) (c : Nat) :
    (∃ pre a post, l = pre ++ a :: post ∧ a.code = c ∧ attrFrom c l = some { a with attrs := post }) ∨
      ((∀ a ∈ l, a.code ≠ c) ∧ attrFrom c l = none) := by
  induction l with
  | nil => exact Or.inr ⟨by simp, rfl⟩
  | cons a l ih =>
    obtain ⟨h1, h2⟩ := List.pairwise_cons.mp hs
    unfold attrFrom
    by_cases hle : a.code ≤ c
    · rw [if_pos hle]
      by_cases he : a.code = c
      · rw [if_pos he]
        exact Or.inl ⟨[], a, l, rfl, he, rfl⟩
      · rw [if_neg he]
        rcases ih h2 with ⟨pre, b, post, rfl, e1, e2⟩ | ⟨e1, e2⟩
        · exact Or.inl ⟨a :: pre, b, post, rfl, e1, e2⟩
        · refine Or.inr ⟨?_, e2⟩
          intro b hb
          rcases List.mem_cons.mp hb with rfl | hb
          · exact he
          · exact e1 b hb
    · rw [if_neg hle]
      refine Or.inr ⟨?_, rfl⟩
      intro b hb
      rcases List.mem_cons.mp hb with rfl | hb
      · omega
      · have := h1 b hb
        omega

theorem _root_.Wreport.Spec.Held.attrFrom {v : Var} (hv : Held E T v) {pre post : List VarCore} {a : VarCore}
    (h : v.attrs = pre ++ a :: post) : Held E T { a with attrs := post } := by
  have hmem : ∀ b, b = a ∨ b ∈ post → b ∈ v.attrs := by
    rintro b hb
    rw [h]
    simp
    tauto
  refine ⟨⟨hv.sane.attrs a (hmem a (Or.inl rfl)), ?_, ?_⟩, hv.attrs a (hmem a (Or.inl rfl)), ?_⟩
  · exact fun b hb => hv.sane.attrs b (hmem b (Or.inr hb))
  · have := hv.sane.sorted
    rw [h] at this
    exact (List.pairwise_cons.mp (List.pairwise_append.mp this).2.1).2
  · exact fun b hb => hv.attrs b (hmem b (Or.inr hb))

/-- A variable of the same description given the value of an attribute. -/
theorem setval_same (hE : IsRounding E.fl) (hconv : ∀ u d, E.conv u u d = .ok d) {a : VarCore}
    (ha : a.Sane E) (hb : a.info.type ≠ .binary) :
    ((Var.new a.info).setval E .default a).2 = .ok () ∧
      ((Var.new a.info).setval E .default a).1.Sane E ∧
      AttrCopy a ((Var.new a.info).setval E .default a).1 := by
  have hn := Var.Sane.new ha.made
  have ev : (Var.new a.info).info = a.info := rfl
  unfold AttrCopy
  cases hs : a.isset with
  | false =>
    have goal : (Var.new a.info).setval E .default a = ((Var.new a.info).unset, .ok ()) := by
      unfold Var.setval
      simp [hs]
    rw [goal]
    refine ⟨rfl, hn.unset, rfl, ?_, rfl⟩
    rw [view_unset hs]
    exact view_unset (v := (Var.new a.info).unset.toVarCore) rfl
  | true =>
    rcases type_cases hb with hnum | ht
    · obtain ⟨i, hc, hi, hr⟩ := ha.word hnum
      have hd' := C04_var_roundtrip E hE .default { a with attrs := [] } i ha.made hnum hs hc (hr hs)
      obtain ⟨d, h1, -, -⟩ := hd'
      have h1' : a.enqd E = .ok d := h1
      obtain ⟨d2, g1, g2, g3⟩ := C04_var_roundtrip E hE .default ((Var.new a.info).putInt i) i ha.made
        hnum rfl rfl (hr hs)
      have hdd : d2 = d := by
        have e1 := enqd_num (E := E) (v := a) hnum hc hs
        have e2 := enqd_num (E := E) (v := ((Var.new a.info).putInt i).toVarCore) hnum rfl rfl
        rw [show ((Var.new a.info).putInt i).toVarCore.info = a.info from rfl, ← e1, h1'] at e2
        rw [show ((Var.new a.info).putInt i).enqd E = _ from e2] at g1
        cases g1
        rfl
      subst hdd
      have same : (Var.new a.info).setd E .default (.fin d2) = ((Var.new a.info).putInt i, .ok ()) := by
        unfold Var.setd at g2 g3 ⊢
        have e3 : ((Var.new a.info).putInt i).info = a.info := rfl
        rcases hnum with ht | ht
        · rw [e3, ht] at g2 g3
          rw [ev, ht]
          simp only [assign_default, e3, ev] at g2 g3 ⊢
          split at g2
          · cases g2
          · next hin =>
            rw [if_neg hin] at g3 ⊢
            have := enqi_putInt (v := (Var.new a.info).putInt i) (Or.inl ht) (wrapInt (E.lround (.fin d2)))
            rw [this] at g3
            cases g3
            rfl
        · rw [e3, ht] at g2 g3
          rw [ev, ht]
          simp only at g2 g3 ⊢
          unfold Var.assign_d_checked Opts.default at g2 g3 ⊢
          simp only [e3, ev] at g2 g3 ⊢
          rw [if_neg (by simp)] at g2 g3 ⊢
          split at g2
          · simp at g2
          · next hin =>
            rw [if_neg hin] at g3 ⊢
            unfold Var.putDbl Var.ofRes at g2 g3 ⊢
            simp only [e3, ev] at g2 g3 ⊢
            cases he : a.info.encode_decimal E (.fin d2) with
            | ok j =>
              simp only [he, Res.ok_bind, Res.pure_def] at g3 ⊢
              have := enqi_putInt (v := (Var.new a.info).putInt i) (Or.inr ht) j
              rw [this] at g3
              cases g3
              rfl
            | err => simp [he] at g2
            | ub => simp [he] at g2
      have hconv2 : (do let d ← a.enqd E; E.conv a.info.unit (Var.new a.info).info.unit (.fin d)) =
          Res.ok (.fin d2) := by
        rw [h1', Res.ok_bind]
        exact hconv _ _
      have goal : (Var.new a.info).setval E .default a = ((Var.new a.info).putInt i, .ok ()) := by
        unfold Var.setval
        simp only [ev] at hconv2
        simp only [ev, hconv2, hs, same]
        rcases hnum with ht | ht <;> simp [ht]
      rw [goal]
      refine ⟨rfl, hn.putInt hnum (hr hs), rfl, ?_, rfl⟩
      rw [view_num hnum hc hs]
      exact view_num (v := ((Var.new a.info).putInt i).toVarCore) hnum rfl rfl
    · obtain ⟨t, m, h1, h2, h3⟩ := sane_text ha ht hs
      obtain ⟨hnul, r, rfl⟩ := cstr_eq_ok h3
      have hlen : t.length ≤ a.info.len := (enqc_of_view (E := E) ha.wf h1).2.2.1
      obtain ⟨m', g1, g2, g3⟩ := assign_c_ok (v := Var.new a.info) (WF_new _) ht t r hnul a.info.len
      rw [ev, Nat.min_self, List.take_of_length_le hlen] at g3
      have goal : (Var.new a.info).setval E .default a = ((Var.new a.info).putMem m', .ok ()) := by
        unfold Var.setval
        simp [hs, ev, ht, h2, g1]
      rw [goal]
      refine ⟨rfl, ?_, rfl, ?_, rfl⟩
      · exact ⟨.of_text (v := ((Var.new a.info).putMem m').toVarCore) ha.made (string_not_num ht)
          (Var.WF_putMem_string ht g2 g3), hn.attrs, hn.sorted⟩
      · rw [h1]
        exact Var.view_putMem_string ht g3

theorem attrObjects_ok (hE : IsRounding E.fl) (hconv : ∀ u d, E.conv u u d = .ok d)
    {l : List VarCore} (hs : ∀ a ∈ l, a.Sane E) (ht : ∀ a ∈ l, FromTable E T a.info) :
    ∃ ws, attrObjects E .default l = .ok ws ∧ (∀ w ∈ ws, Held E T w) ∧
      List.Forall₂ AttrCopy l ws := by
  induction l with
  | nil => exact ⟨[], rfl, by simp, .nil⟩
  | cons a l ih =>
    obtain ⟨ws, h1, h2, h3⟩ := ih (fun x hx => hs x (by simp [hx])) fun x hx => ht x (by simp [hx])
    obtain ⟨g1, g2, g3⟩ := setval_same hE hconv (hs a (by simp)) (ht a (by simp)).text
    refine ⟨_ :: ws, ?_, ?_, .cons g3 h3⟩
    · unfold attrObjects
      simp only [g1, h1]
      rfl
    · intro w hw
      rcases List.mem_cons.mp hw with rfl | hw
      · exact ⟨g2, by rw [g3.1]; exact ht a (by simp), by rw [g3.2.2]; simp⟩
      · exact h2 w hw

end Wreport.Py
