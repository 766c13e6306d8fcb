import Verif.Model.PythonInfo
import Verif.Lemmas.Python
import Verif.Props.Conv
import Verif.Props.Varcode
import Verif.Spec.PythonInfo

/-! # C111, C112: descriptions and conversion of units from Python -/

namespace Wreport.Py

open Spec Conv

/-! ## C111 -/

theorem strToPython_returned {b : List Byte} {o : Obj} :
    (strToPython b).done = .returned o ↔ ∃ s, encode s = b ∧ o = .str s := by
  unfold strToPython
  split
  · next s h =>
    simp only [Ret.done, Done.returned.injEq]
    constructor
    · rintro rfl; exact ⟨s, decode_iff.mp h, rfl⟩
    · rintro ⟨t, ht, rfl⟩
      rw [decode_iff.mpr ht] at h
      cases h; rfl
  · next h =>
    constructor
    · intro h'; cases h'
    · rintro ⟨t, ht, rfl⟩
      rw [decode_iff.mpr ht] at h
      cases h

theorem strToPython_inj {b c : List Byte} {o : Obj} (hb : (strToPython b).done = .returned o)
    (hc : (strToPython c).done = .returned o) : b = c := by
  obtain ⟨s, rfl, rfl⟩ := strToPython_returned.mp hb
  obtain ⟨t, rfl, h⟩ := strToPython_returned.mp hc
  cases h; rfl

theorem vartype_format_inj {s t : Vartype} (h : vartype_format s = vartype_format t) : s = t := by
  cases s <;> cases t <;> first | rfl | exact absurd h (by decide +kernel)

/-- C111: reading an attribute of a description gives a value, but for units that are not UTF-8
text, which raise an exception. -/
theorem C111_read_partial (info : Varinfo) (g : Getter) :
    (∃ o, infoGet info g = .returned o) ∨
    (g = .unit ∧ (∀ s, encode s ≠ info.unit) ∧ infoGet info g = .raised .unicodeDecode) := by
  have ht : Utf8 (vartype_format info.type) := by
    cases info.type <;> exact utf8_small (by decide +kernel)
  cases g with
  | type =>
    obtain ⟨s, hs⟩ := ht
    exact .inl ⟨.str s, strToPython_returned.mpr ⟨s, hs, rfl⟩⟩
  | code =>
    obtain ⟨s, hs⟩ := utf8_varcode info.code
    exact .inl ⟨.str s, strToPython_returned.mpr ⟨s, hs, rfl⟩⟩
  | unit =>
    cases h : decode info.unit with
    | some s => exact .inl ⟨.str s, strToPython_returned.mpr ⟨s, decode_iff.mp h, rfl⟩⟩
    | none =>
      refine .inr ⟨rfl, fun s hs => ?_, ?_⟩
      · rw [decode_iff.mpr hs] at h; cases h
      · simp only [infoGet, infoUnit, strToPython, h, Ret.done]
  | len => exact .inl ⟨_, rfl⟩
  | scale => exact .inl ⟨_, rfl⟩
  | bit_ref => exact .inl ⟨_, rfl⟩
  | bit_len => exact .inl ⟨_, rfl⟩

/-- C111: what is read is what the description says. -/
theorem C111_values (info : Varinfo) (hc : info.code < 65536) :
    infoGet info .len = .returned (.int info.len) ∧
    infoGet info .scale = .returned (.int info.scale) ∧
    infoGet info .bit_ref = .returned (.int info.bit_ref) ∧
    infoGet info .bit_len = .returned (.int info.bit_len) ∧
    (∀ s, infoGet info .code = .returned (.str s) → varcode_parse (encode s) = .ok info.code) ∧
    (∀ s, infoGet info .type = .returned (.str s) → vartype_parse (encode s) = .ok info.type) ∧
    (∀ s, infoGet info .unit = .returned (.str s) → encode s = info.unit) := by
  refine ⟨rfl, rfl, rfl, rfl, fun s h => ?_, fun s h => ?_, fun s h => ?_⟩
  · obtain ⟨t, ht, h⟩ := strToPython_returned.mp h
    cases h
    rw [ht]
    exact C01_parse_format _ hc
  · obtain ⟨t, ht, h⟩ := strToPython_returned.mp h
    cases h
    rw [ht]
    cases info.type <;> decide +kernel
  · obtain ⟨t, ht, h⟩ := strToPython_returned.mp h
    cases h
    exact ht

/-- What `compute_range` keeps and what it computes from. -/
theorem range_same {E : Env} {r s a b : Varinfo} (ha : r.compute_range E = .ok a)
    (hb : s.compute_range E = .ok b) (h1 : a.code = b.code) (h2 : a.type = b.type)
    (h3 : a.unit = b.unit) (h4 : a.scale = b.scale) (h5 : a.len = b.len)
    (h6 : a.bit_ref = b.bit_ref) (h7 : a.bit_len = b.bit_len) : a = b := by
  have keep : ∀ {r a : Varinfo}, r.compute_range E = .ok a → r.code = a.code ∧ r.type = a.type ∧
      r.unit = a.unit ∧ r.scale = a.scale ∧ r.len = a.len ∧ r.bit_ref = a.bit_ref ∧
      r.bit_len = a.bit_len := by
    intro r a h
    unfold Varinfo.compute_range at h
    split at h
    iterate 2
      cases h
      exact ⟨rfl, rfl, rfl, rfl, rfl, rfl, rfl⟩
    iterate 2
      obtain ⟨x, -, h⟩ := Res.bind_eq_ok.mp h
      obtain ⟨y, -, h⟩ := Res.bind_eq_ok.mp h
      obtain ⟨z, -, h⟩ := Res.bind_eq_ok.mp h
      cases h
      exact ⟨rfl, rfl, rfl, rfl, rfl, rfl, rfl⟩
  have over : ∀ (r : Varinfo) (i j : Int) (x y : ℚ), r.compute_range E =
      Varinfo.compute_range E { r with imin := i, imax := j, dmin := x, dmax := y } := by
    intro r i j x y
    rfl
  obtain ⟨k1, k2, k3, k4, k5, k6, k7⟩ := keep ha
  obtain ⟨l1, l2, l3, l4, l5, l6, l7⟩ := keep hb
  have e : r.compute_range E = s.compute_range E := by
    rw [over r 0 0 0 0, over s 0 0 0 0]
    congr 1
    rw [Varinfo.mk.injEq]
    exact ⟨k1.trans (h1.trans l1.symm), k2.trans (h2.trans l2.symm), k3.trans (h3.trans l3.symm),
      k4.trans (h4.trans l4.symm), k5.trans (h5.trans l5.symm), k6.trans (h6.trans l6.symm),
      k7.trans (h7.trans l7.symm), rfl, rfl, rfl, rfl⟩
  rw [e, hb] at ha
  exact (Res.ok.inj ha).symm

/-- C111: descriptions that the library has made are the same, also in their limits, when programs
read the same from them. -/
theorem C111_same (E : Env) (a b : Varinfo) (ha : a.Made E) (hb : b.Made E) (hca : a.code < 65536)
    (hcb : b.code < 65536) (h : ∀ g, ∃ o, infoGet a g = .returned o ∧ infoGet b g = .returned o) :
    a = b := by
  obtain ⟨⟨r, hr⟩, -⟩ := ha
  obtain ⟨⟨s, hs⟩, -⟩ := hb
  obtain ⟨o1, x1, y1⟩ := h .code
  obtain ⟨o2, x2, y2⟩ := h .type
  obtain ⟨o3, x3, y3⟩ := h .unit
  obtain ⟨o4, x4, y4⟩ := h .scale
  obtain ⟨o5, x5, y5⟩ := h .len
  obtain ⟨o6, x6, y6⟩ := h .bit_ref
  obtain ⟨o7, x7, y7⟩ := h .bit_len
  refine range_same hr hs (C01_format_injective _ _ hca hcb (strToPython_inj x1 y1))
    (vartype_format_inj (strToPython_inj x2 y2)) (strToPython_inj x3 y3) ?_ ?_ ?_ ?_
  · cases x4; simpa [infoGet, infoScale, Ret.done] using y4.symm
  · cases x5; simpa [infoGet, infoLen, Ret.done] using y5.symm
  · cases x6; simpa [infoGet, infoBitRef, Ret.done] using y6.symm
  · cases x7; simpa [infoGet, infoBitLen, Ret.done] using y7.symm

example : sampleTemp.Made Env0 ∧ sampleTemp.code < 65536 ∧
    ∀ g, ∃ o, infoGet sampleTemp g = .returned o := by
  refine ⟨sampleTemp_made, by decide +kernel, fun g => ?_⟩
  rcases C111_read_partial sampleTemp g with h | ⟨rfl, h, -⟩
  · exact h
  · exact absurd rfl (h ['K'] ∘ fun h' => h'.trans (by decide +kernel))

/-- A unit of 24 bytes that ends with a degree sign. -/
def cutUnit : List Char := "degrees of Celsius in °".toList

/-- C111 does not hold for all units that are text: the one that is too long is cut within a
character, and can then not be read. -/
theorem C111_not_unit :
    ∃ info, Varinfo.set_bufr Env0 (WR_VAR 0 12 101) (encode cutUnit) 0 5 0 16 = .ok info ∧
      infoGet info .unit = .raised .unicodeDecode := by
  have h : (match Varinfo.set_bufr Env0 (WR_VAR 0 12 101) (encode cutUnit) 0 5 0 16 with
      | .ok info => decide (infoGet info .unit = .raised .unicodeDecode)
      | _ => false) = true := by
    decide +kernel
  split at h
  · next info hi => exact ⟨info, hi, of_decide_eq_true h⟩
  · cases h

/-! ## C112 -/

theorem argText_names {o : Obj} {b : List Byte} : argText o = .ok b ↔ NamesUnit o b := by
  unfold argText NamesUnit
  split
  · next s =>
    split
    · next h =>
      simp only [reduceCtorEq, Obj.str.injEq, false_iff, not_exists, not_and]
      rintro t rfl rfl
      simpa using h
    · next h =>
      constructor
      · intro h'; cases h'; exact ⟨s, rfl, rfl, h⟩
      · rintro ⟨t, e, rfl, -⟩; cases e; rfl
  · simp
  · next h1 h2 =>
    simp only [reduceCtorEq, false_iff, not_exists, not_and]
    intro s hs
    exact absurd hs (h1 s)

theorem argText_bad {o : Obj} {e : Exc} : argText o = .error e ↔ BadText o e := by
  unfold argText BadText
  cases o <;> simp
  · exact eq_comm
  · exact eq_comm
  · exact eq_comm
  · split <;> simp_all [eq_comm]
  · exact eq_comm
  · exact eq_comm
  · exact eq_comm

theorem argDouble_stands {fl : ℚ → ℚ} {o : Obj} {d : Dbl} : argDouble fl o = .ok d ↔ Stands fl o d := by
  unfold argDouble Stands
  cases o with
  | int i =>
    simp only [reduceCtorEq, Obj.int.injEq, false_or]
    split
    · next h =>
      constructor
      · intro h'; cases h'; exact ⟨i, rfl, h, rfl⟩
      · rintro ⟨j, rfl, -, rfl⟩; rfl
    · next h =>
      constructor
      · intro h'; cases h'
      · rintro ⟨j, rfl, h', -⟩; exact absurd h' h
  | float x => simp
  | _ => simp

theorem argDouble_bad {fl : ℚ → ℚ} {o : Obj} {e : Exc} : argDouble fl o = .error e ↔ BadNumber o e := by
  unfold argDouble BadNumber
  cases o with
  | int i =>
    simp only [Obj.int.injEq]
    split
    · next h =>
      constructor
      · intro h'; cases h'
      · rintro (⟨j, rfl, h', -⟩ | ⟨h', -⟩)
        · omega
        · exact absurd rfl (h' i)
    · next h =>
      constructor
      · intro h'; cases h'; exact .inl ⟨i, rfl, by omega, rfl⟩
      · rintro (⟨j, rfl, h', rfl⟩ | ⟨h', -⟩)
        · rfl
        · exact absurd rfl (h' i)
  | float x => simp
  | _ => simp [eq_comm]

theorem convert_of {fl : ℚ → ℚ} {repo : List Entry} {a b c : Obj} {src dst : List Byte} {d : Dbl}
    (ha : NamesUnit a src) (hb : NamesUnit b dst) (hc : Stands fl c d) :
    Py.convert_units fl repo a b c =
      caught none (Conv.convert_units fl repo src dst d >>= fun r => .ok (.float r)) := by
  unfold Py.convert_units
  rw [argText_names.mpr ha, argText_names.mpr hb, argDouble_stands.mpr hc]
  rfl

/-- C112: between equal units, known or not, a float is given back. -/
theorem C112_same (fl : ℚ → ℚ) (repo : List Entry) {a b c : Obj} {u : List Byte} {d : Dbl}
    (ha : NamesUnit a u) (hb : NamesUnit b u) (hc : Stands fl c d) :
    (Py.convert_units fl repo a b c).done = .returned (.float d) := by
  rw [convert_of ha hb hc, C53_same]
  rfl

/-- C112: units that are not known raise `NotImplementedError`. -/
theorem C112_unknown {fl : ℚ → ℚ} {repo : List Entry} (hr : IsRepo fl repo) {a b c : Obj}
    {src dst : List Byte} {d : Dbl} (ha : NamesUnit a src) (hb : NamesUnit b dst) (hc : Stands fl c d)
    (hne : src ≠ dst) (hu : ∀ k, (⟨src, dst, k⟩ : Entry) ∉ registered fl) :
    (Py.convert_units fl repo a b c).done = .raised .notImplemented := by
  rw [convert_of ha hb hc]
  rcases C53_registered hr hne d with ⟨k, hk, -⟩ | ⟨-, h⟩
  · exact absurd hk (hu k)
  · rw [h]; rfl

/-- C112: other objects raise an exception, that of the first of them. -/
theorem C112_arguments (fl : ℚ → ℚ) (repo : List Entry) (a b c : Obj) :
    (∀ e, BadText a e → (Py.convert_units fl repo a b c).done = .raised e) ∧
    (∀ src e, NamesUnit a src → BadText b e → (Py.convert_units fl repo a b c).done = .raised e) ∧
    (∀ src dst e, NamesUnit a src → NamesUnit b dst → BadNumber c e →
      (Py.convert_units fl repo a b c).done = .raised e) ∧
    ((∃ e, BadText a e) ∨ ∃ src, NamesUnit a src) ∧ ((∃ e, BadNumber c e) ∨ ∃ d, Stands fl c d) := by
  unfold Py.convert_units
  refine ⟨fun e h => ?_, fun src e h1 h2 => ?_, fun src dst e h1 h2 h3 => ?_, ?_, ?_⟩
  · rw [argText_bad.mpr h]; rfl
  · rw [argText_names.mpr h1, argText_bad.mpr h2]; rfl
  · rw [argText_names.mpr h1, argText_names.mpr h2, argDouble_bad.mpr h3]; rfl
  · cases h : argText a with
    | error e => exact .inl ⟨e, argText_bad.mp h⟩
    | ok s => exact .inr ⟨s, argText_names.mp h⟩
  · cases h : argDouble fl c with
    | error e => exact .inl ⟨e, argDouble_bad.mp h⟩
    | ok s => exact .inr ⟨s, argDouble_stands.mp h⟩

/-- C112: converting a float and converting the result back gives the float, up to rounding of
doubles. What is missing from the property: the pairs of C53 for which this fails in the library. -/
theorem C112_back_partial {fl : ℚ → ℚ} (hf : IsRounding fl) {repo : List Entry}
    (hr : IsRepo fl repo) {a b : Obj} {src dst : List Byte} (ha : NamesUnit a src) (hb : NamesUnit b dst)
    {k : Convert} (hk : ⟨src, dst, k⟩ ∈ registered fl) (hw : ¬ Among wrongPairs src dst)
    (hg : ¬ Among roughPairs src dst) (v : ℚ) :
    ∃ o z, (Py.convert_units fl repo a b (.float (.fin v))).done = .returned o ∧
      (Py.convert_units fl repo b a o).done = .returned (.float (.fin z)) ∧
      |z - v| ≤ (|v| + zeroShift src dst) / 2 ^ 48 := by
  obtain ⟨y, z, h1, h2, h3⟩ := C53_inverse_partial hf hr hk hw hg v
  refine ⟨.float (.fin y), z, ?_, ?_, h3⟩
  · rw [convert_of ha hb (.inl rfl), h1]; rfl
  · rw [convert_of hb ha (.inl rfl), h2]; rfl

theorem octants_of {fl : ℚ → ℚ} {s d : List Byte} {c : Convert} (h : ⟨s, d, c⟩ ∈ registered fl)
    (hc : c = .octantsToDegrees ∨ c = .degreesToOctants) : Among octantPair s d := by
  obtain ⟨k, hk, h⟩ := List.mem_flatMap.mp h
  cases k with
  | linear =>
    simp only [Call.entries, List.mem_cons, List.not_mem_nil, or_false, Entry.mk.injEq] at h
    rcases h with ⟨-, -, rfl⟩ | ⟨-, -, rfl⟩ <;> simp at hc
  | ident =>
    simp only [Call.entries, List.mem_cons, List.not_mem_nil, or_false, Entry.mk.injEq] at h
    rcases h with ⟨-, -, rfl⟩ | ⟨-, -, rfl⟩ <;> simp at hc
  | octants s' d' =>
    have : s' = "octants" ∧ d' = "DEGREE TRUE" := by
      simpa [calls] using hk
    obtain ⟨rfl, rfl⟩ := this
    simp only [Call.entries, List.mem_cons, List.not_mem_nil, or_false, Entry.mk.injEq] at h
    refine ⟨("octants", "DEGREE TRUE"), by simp [octantPair], ?_⟩
    rcases h with ⟨rfl, rfl, -⟩ | ⟨rfl, rfl, -⟩
    · exact .inl ⟨rfl, rfl⟩
    · exact .inr ⟨rfl, rfl⟩

/-- The names of the units in a registration. -/
def pairOf : Call → String × String
  | .linear s d _ _ => (s, d)
  | .ident s d => (s, d)
  | .octants s d => (s, d)

theorem pairOf_entry {fl : ℚ → ℚ} {k : Call} {e : Entry} (h : e ∈ k.entries fl) :
    (e.src = ascii (pairOf k).1 ∧ e.dst = ascii (pairOf k).2) ∨
    (e.src = ascii (pairOf k).2 ∧ e.dst = ascii (pairOf k).1) := by
  cases k <;>
  · simp only [Call.entries, List.mem_cons, List.not_mem_nil, or_false] at h
    rcases h with rfl | rfl
    · exact .inl ⟨rfl, rfl⟩
    · exact .inr ⟨rfl, rfl⟩

theorem octants_only {fl : ℚ → ℚ} {c : Convert}
    (h : ⟨ascii "octants", ascii "DEGREE TRUE", c⟩ ∈ registered fl) : c = .octantsToDegrees := by
  obtain ⟨k, hk, h⟩ := List.mem_flatMap.mp h
  have key : ∀ k ∈ calls, ¬ (k matches .octants _ _) →
      ¬ ((ascii (pairOf k).1 = ascii "octants" ∧ ascii (pairOf k).2 = ascii "DEGREE TRUE") ∨
        (ascii (pairOf k).2 = ascii "octants" ∧ ascii (pairOf k).1 = ascii "DEGREE TRUE")) := by
    decide +kernel
  cases k with
  | linear s d m a =>
    refine absurd ?_ (key _ hk (by simp))
    rcases pairOf_entry h with ⟨h1, h2⟩ | ⟨h1, h2⟩
    · exact .inl ⟨h1.symm, h2.symm⟩
    · exact .inr ⟨h1.symm, h2.symm⟩
  | ident s d =>
    refine absurd ?_ (key _ hk (by simp))
    rcases pairOf_entry h with ⟨h1, h2⟩ | ⟨h1, h2⟩
    · exact .inl ⟨h1.symm, h2.symm⟩
    · exact .inr ⟨h1.symm, h2.symm⟩
  | octants s d =>
    have : s = "octants" ∧ d = "DEGREE TRUE" := by simpa [calls] using hk
    obtain ⟨rfl, rfl⟩ := this
    simp only [Call.entries, List.mem_cons, List.not_mem_nil, or_false, Entry.mk.injEq] at h
    rcases h with ⟨-, -, rfl⟩ | ⟨h, -, -⟩
    · rfl
    · exact absurd h (by decide +kernel)

/-- C112: a call ends, with a float or with one of these exceptions. What is missing from the
property: the conversion of octants, for which it fails (`C112_not_octants`). -/
theorem C112_ends_partial {fl : ℚ → ℚ} {repo : List Entry} (hr : IsRepo fl repo) (a b c : Obj)
    (ho : ∀ src dst, NamesUnit a src → NamesUnit b dst → ¬ Among octantPair src dst) :
    (∃ d, (Py.convert_units fl repo a b c).done = .returned (.float d)) ∨
    ∃ e ∈ [Exc.type, .value, .unicodeEncode, .overflow, .notImplemented],
      (Py.convert_units fl repo a b c).done = .raised e := by
  cases ha : argText a with
  | error e =>
    right
    have h := (C112_arguments fl repo a b c).1 e (argText_bad.mp ha)
    refine ⟨e, ?_, h⟩
    rcases argText_bad.mp ha with ⟨-, -, -, rfl⟩ | ⟨-, rfl⟩ | ⟨-, -, rfl⟩ <;> decide
  | ok src =>
  cases hb : argText b with
  | error e =>
    right
    have h := (C112_arguments fl repo a b c).2.1 src e (argText_names.mp ha) (argText_bad.mp hb)
    refine ⟨e, ?_, h⟩
    rcases argText_bad.mp hb with ⟨-, -, -, rfl⟩ | ⟨-, rfl⟩ | ⟨-, -, rfl⟩ <;> decide
  | ok dst =>
  cases hc : argDouble fl c with
  | error e =>
    right
    have h := (C112_arguments fl repo a b c).2.2.1 src dst e (argText_names.mp ha) (argText_names.mp hb)
      (argDouble_bad.mp hc)
    refine ⟨e, ?_, h⟩
    rcases argDouble_bad.mp hc with ⟨-, -, -, rfl⟩ | ⟨-, -, rfl⟩ <;> decide
  | ok d =>
  have ha := argText_names.mp ha
  have hb := argText_names.mp hb
  have hc := argDouble_stands.mp hc
  by_cases hne : src = dst
  · subst hne
    exact .inl ⟨d, C112_same fl repo ha hb hc⟩
  rw [convert_of ha hb hc]
  rcases C53_registered hr hne d with ⟨k, hk, h⟩ | ⟨-, h⟩
  · left
    rw [h]
    cases k with
    | ident => exact ⟨_, rfl⟩
    | linear m a => exact ⟨_, rfl⟩
    | octantsToDegrees => exact absurd (octants_of hk (.inl rfl)) (ho _ _ ha hb)
    | degreesToOctants => exact absurd (octants_of hk (.inr rfl)) (ho _ _ ha hb)
  · right
    rw [h]
    exact ⟨.notImplemented, by decide, rfl⟩

/-- C112 does not hold for octants: an infinity is converted to an integer, which is undefined. -/
theorem C112_not_octants {fl : ℚ → ℚ} {repo : List Entry} (hr : IsRepo fl repo) :
    (Py.convert_units fl repo (.str "octants".toList) (.str "DEGREE TRUE".toList) (.float .pinf)).done =
      .ub := by
  have e1 : NamesUnit (.str "octants".toList) (ascii "octants") :=
    ⟨_, rfl, by decide +kernel, by decide +kernel⟩
  have e2 : NamesUnit (.str "DEGREE TRUE".toList) (ascii "DEGREE TRUE") :=
    ⟨_, rfl, by decide +kernel, by decide +kernel⟩
  rw [convert_of e1 e2 (.inl rfl)]
  have hm : (⟨ascii "octants", ascii "DEGREE TRUE", .octantsToDegrees⟩ : Entry) ∈ registered fl :=
    List.mem_flatMap.mpr ⟨.octants "octants" "DEGREE TRUE", by simp [calls], List.mem_cons_self⟩
  rcases C53_registered hr (src := ascii "octants") (dst := ascii "DEGREE TRUE") (by decide +kernel)
    .pinf with ⟨k, hk, h⟩ | ⟨hk, -⟩
  · rw [h, octants_only hk]
    rfl
  · exact absurd hm (hk _)

/-- The hypotheses of C112 are met by degrees Celsius, and by a unit that is not known. -/
example : IsRounding flNearest ∧ IsRepo flNearest ((registered flNearest).mergeSort entryLe) ∧
    NamesUnit (.str "K".toList) (ascii "K") ∧ NamesUnit (.str "C".toList) (ascii "C") ∧
    (∃ k, (⟨ascii "K", ascii "C", k⟩ : Entry) ∈ registered flNearest) ∧
    ¬ Among wrongPairs (ascii "K") (ascii "C") ∧ ¬ Among roughPairs (ascii "K") (ascii "C") ∧
    (∀ k, (⟨ascii "K", ascii "C/100", k⟩ : Entry) ∉ registered flNearest) := by
  refine ⟨isRounding_flNearest, isRepo_mergeSort _, ⟨_, rfl, by decide +kernel, by decide +kernel⟩,
    ⟨_, rfl, by decide +kernel, by decide +kernel⟩, ⟨_, List.mem_flatMap.mpr
      ⟨.linear "K" "C" 1 (-273.15001), by simp [calls], List.mem_cons_self⟩⟩, ?_, ?_, ?_⟩
  · decide +kernel
  · decide +kernel
  · intro k hk
    obtain ⟨c, hc, h⟩ := List.mem_flatMap.mp hk
    have key : ∀ c ∈ calls, ¬ ((ascii (pairOf c).1 = ascii "K" ∧ ascii (pairOf c).2 = ascii "C/100") ∨
        (ascii (pairOf c).2 = ascii "K" ∧ ascii (pairOf c).1 = ascii "C/100")) := by
      decide +kernel
    refine key c hc ?_
    rcases pairOf_entry h with ⟨h1, h2⟩ | ⟨h1, h2⟩
    · exact .inl ⟨h1.symm, h2.symm⟩
    · exact .inr ⟨h1.symm, h2.symm⟩

end Wreport.Py
