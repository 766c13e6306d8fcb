import Verif.Lemmas.Python
import Verif.Props.VarAttr
import Verif.Props.Varcode

/-!
Properties C101 to C103: variables from Python.
-/

namespace Wreport

open Spec Py

/-! ## C101 -/

/-- How a call that makes a variable ends. -/
def Py.built (v : Var) : Res Unit → Done Var
  | .ok () => .returned v
  | .err e => .raised (excOf e)
  | .ub => .ub

theorem initInfo_of {E : Env} {info : Varinfo} {o : Obj} {v : Var} {r : Res Unit}
    (h : var_value_from_python E .default o (Var.new info) = (v, caught none r)) :
    (initInfo E .default info (some o)).done = Py.built v r := by
  unfold initInfo
  simp only [h]
  cases r <;> rfl

/-- A whole number. -/
theorem initInfo_int {E : Env} (hE : IsRounding E.fl) {info : Varinfo} {o : Obj} {i : Int}
    (hm : info.Made E) (hn : info.IsNum)
    (h : var_value_from_python E .default o (Var.new info) =
      (((Var.new info).assign_i_checked .default i).1,
        caught none ((Var.new info).assign_i_checked .default i).2)) :
    (initInfo E .default info (some o)).done = .raised .overflow ∧ (i < info.imin ∨ info.imax < i) ∨
    ∃ v r, (initInfo E .default info (some o)).done = .returned v ∧ v.info = info ∧
      (enq E v).done = .returned r ∧ KeptInt info i r := by
  rw [initInfo_of h, assign_default]
  have e : (Var.new info).info = info := rfl
  rw [e]
  split
  · exact Or.inl ⟨rfl, ‹_›⟩
  · obtain ⟨r, h1, h2⟩ := enq_putInt hE hm hn i
    exact Or.inr ⟨_, r, rfl, rfl, h1, h2⟩

/-- C101 (part): a variable that is made with a value that does not touch the limits of
the C++ types reads as that value; a value that the variable cannot hold is refused
with `OverflowError`, one of the wrong kind with `TypeError`, and a string that has no
encoding with `UnicodeEncodeError`. Missing: wider integers (`C101_not_wide`), texts
that are cut (`C101_not_cut`) or have a NUL (`C101_not_nul`), texts that are not numbers (`C101_not_number`), and binary
variables (`C101_not_binary`, `C101_not_binary_cut`, `C101_not_binary_short`), for which it fails. -/
theorem C101_kept_partial (E : Env) (hE : IsRounding E.fl) (info : Varinfo) (o : Obj)
    (hm : info.Made E) (hb : info.type ≠ .binary) (ho : WithinTypes info o) :
    ((initInfo E .default info (some o)).done = .raised .overflow ∧ OutOfRange info o) ∨
    ((initInfo E .default info (some o)).done = .raised .type ∧ WrongKind info o) ∨
    ((initInfo E .default info (some o)).done = .raised .unicodeEncode ∧ o = .surrogates) ∨
    ∃ v r, (initInfo E .default info (some o)).done = .returned v ∧ v.info = info ∧
      (enq E v).done = .returned r ∧ GivesBack info o r := by
  have num : info.IsNum ∨ info.type = .string := by
    unfold Varinfo.IsNum
    cases ht : info.type <;> simp_all
  have notnum : info.type = .string → ¬ info.IsNum := string_not_num
  have ev : (Var.new info).info = info := rfl
  cases o with
  | none => exact Or.inr (Or.inl ⟨rfl, trivial⟩)
  | other => exact Or.inr (Or.inl ⟨rfl, trivial⟩)
  | surrogates => exact Or.inr (Or.inr (Or.inl ⟨rfl, rfl⟩))
  | int i =>
    have hi : inInt i = true := ho
    have hl : asLong i = (i, none) := by
      unfold asLong
      rw [inInt_iff] at hi
      rw [if_pos (by omega)]
    rcases num with hn | ht
    · have key : var_value_from_python E .default (.int i) (Var.new info) =
          (((Var.new info).assign_i_checked .default i).1,
            caught none ((Var.new info).assign_i_checked .default i).2) := by
        unfold var_value_from_python
        simp only [hl, wrapInt_eq hi]
        rw [seti_num (v := Var.new info) hn]
      rcases initInfo_int hE hm hn key with h | ⟨v, r, h1, h2, h3, h4⟩
      · exact Or.inl h
      · refine Or.inr (Or.inr (Or.inr ⟨v, r, h1, h2, h3, ?_⟩))
        unfold GivesBack
        cases ht : info.type <;> exact h4
    · refine Or.inr (Or.inl ⟨?_, notnum ht⟩)
      have key : var_value_from_python E .default (.int i) (Var.new info) =
          (Var.new info, caught none (.err .type)) := by
        unfold var_value_from_python
        simp only [hl, wrapInt_eq hi]
        unfold Var.seti
        rw [ev, ht]
      rw [initInfo_of key]
      rfl
  | float d =>
    rcases num with hn | ht
    · rcases hn with ht | ht
      · cases d with
        | fin x =>
          have hi : inInt (lroundQ x) = true := ho ht
          have hl : E.lround (.fin x) = lroundQ x := by
            unfold Env.lround
            rw [inInt_iff] at hi
            simp only
            rw [if_pos (by omega)]
          have key : var_value_from_python E .default (.float (.fin x)) (Var.new info) =
              (((Var.new info).assign_i_checked .default (lroundQ x)).1,
                caught none ((Var.new info).assign_i_checked .default (lroundQ x)).2) := by
            unfold var_value_from_python Var.setd
            rw [ev, ht]
            simp only [hl, wrapInt_eq hi]
          rcases initInfo_int hE hm (Or.inl ht) key with ⟨h, h'⟩ | ⟨v, r, h1, h2, h3, h4⟩
          · refine Or.inl ⟨h, ?_⟩
            unfold OutOfRange
            rw [ht]
            exact ⟨_, lroundQ_near x, h'⟩
          · refine Or.inr (Or.inr (Or.inr ⟨v, r, h1, h2, h3, ?_⟩))
            have h5 : r = .int (lroundQ x) := by
              unfold KeptInt at h4
              rwa [ht] at h4
            have h6 : KeptFloat info x r := by
              unfold KeptFloat
              rw [ht]
              exact ⟨_, h5, lroundQ_near x⟩
            unfold GivesBack
            rw [ht]
            exact ⟨x, rfl, h6⟩
        | nan => exact absurd ht ho
        | pinf => exact absurd ht ho
        | ninf => exact absurd ht ho
      · have key : var_value_from_python E .default (.float d) (Var.new info) =
            (((Var.new info).assign_d_checked E .default d).1,
              caught none ((Var.new info).assign_d_checked E .default d).2) := by
          unfold var_value_from_python Var.setd
          rw [ev, ht]
        by_cases hout : d = .nan ∨ d.lt info.dmin = true ∨ d.gt info.dmax = true
        · left
          have hd : (Var.new info).assign_d_checked E .default d = ((Var.new info).unset, .err .domain) := by
            unfold Var.assign_d_checked Opts.default
            rcases hout with rfl | hout
            · simp
            · by_cases hnan : d = .nan
              · subst hnan; simp
              · rw [if_neg hnan, ev, if_pos hout]
                simp
          rw [hd] at key
          refine ⟨by rw [initInfo_of key]; rfl, ?_⟩
          unfold OutOfRange
          cases d with
          | fin x =>
            simp only [ht]
            rcases hout with h | h | h
            · cases h
            · exact Or.inl (by simpa [Dbl.lt] using h)
            · exact Or.inr (by simpa [Dbl.gt] using h)
          | nan => simp
          | pinf => simp
          | ninf => simp
        · push Not at hout
          obtain ⟨o1, o2, o3⟩ := hout
          obtain ⟨x, i, rfl, he, hp, -⟩ := putDbl_in_range hE (v := Var.new info) hm (Or.inr ht) o1
            (by rw [ev]; simpa using o2) (by rw [ev]; simpa using o3)
          have hd : (Var.new info).assign_d_checked E .default (.fin x) = ((Var.new info).putInt i, .ok ()) := by
            unfold Var.assign_d_checked
            rw [if_neg o1, ev, if_neg (by simp [o2, o3]), hp]
          rw [hd] at key
          obtain ⟨r, h1, h2⟩ := enq_putInt hE hm (Or.inr ht) i
          refine Or.inr (Or.inr (Or.inr ⟨_, r, initInfo_of key, rfl, h1, ?_⟩))
          have h6 := keptFloat_of ht (encode_decimal_near hE he) h2
          unfold GivesBack
          rw [ht]
          exact ⟨x, rfl, h6⟩
    · refine Or.inr (Or.inl ⟨?_, notnum ht⟩)
      have key : var_value_from_python E .default (.float d) (Var.new info) =
          (Var.new info, caught none (.err .type)) := by
        unfold var_value_from_python Var.setd
        rw [ev, ht]
      rw [initInfo_of key]
      rfl
  | str s =>
    obtain ⟨ho1, ho2⟩ := ho
    rcases num with hn | ht
    · obtain ⟨i, hd, hi⟩ := ho1 hn
      obtain ⟨p1, p2, p3⟩ := strToInt32_decimal hd hi
      have key : var_value_from_python E .default (.str s) (Var.new info) =
          (((Var.new info).assign_i_checked .default i).1,
            caught none ((Var.new info).assign_i_checked .default i).2) := by
        unfold var_value_from_python Var.sets
        rw [ev]
        simp only [takeWhile_nulFree p3]
        have e : (Var.new info).setNumText .default (encode s) = (Var.new info).assign_i_checked .default i := by
          unfold Var.setNumText
          rw [p1, p2]
          simp
        rcases hn with h | h <;> simp only [h, e]
      rcases initInfo_int hE hm hn key with ⟨h, h'⟩ | ⟨v, r, h1, h2, h3, h4⟩
      · exact Or.inl ⟨h, i, ⟨hd, hi⟩, h'⟩
      · refine Or.inr (Or.inr (Or.inr ⟨v, r, h1, h2, h3, ?_⟩))
        unfold GivesBack
        rcases hn with h | h <;> rw [h] <;> exact ⟨i, ⟨hd, hi⟩, h4⟩
    · obtain ⟨hnul, hlen⟩ := ho2 (notnum ht)
      obtain ⟨m, h1, -, h3⟩ := assign_c_ok (v := Var.new info) (WF_new info) ht (encode s) [] hnul
        (encode s).length
      have key : var_value_from_python E .default (.str s) (Var.new info) =
          ((Var.new info).putMem m, caught none (.ok ())) := by
        unfold var_value_from_python Var.sets
        rw [ev, ht]
        simp only
        rw [List.append_nil] at h1
        rw [h1]
      rw [ev, Nat.min_eq_left hlen, List.take_length] at h3
      refine Or.inr (Or.inr (Or.inr ⟨_, _, initInfo_of key, rfl, enq_putMem ht h3, ?_⟩))
      unfold GivesBack
      rw [ht]
  | bytes b =>
    obtain ⟨ho1, ho2⟩ := ho
    rcases num with hn | ht
    · obtain ⟨i, hd, hi⟩ := ho1 hn
      obtain ⟨p1, p2, p3⟩ := strToInt32_decimal hd hi
      have key : var_value_from_python E .default (.bytes b) (Var.new info) =
          (((Var.new info).assign_i_checked .default i).1,
            caught none ((Var.new info).assign_i_checked .default i).2) := by
        unfold var_value_from_python Var.setc
        rw [ev]
        have e0 : cstr (c_str b) = .ok b := by simpa using cstr_c_str b [] p3
        have e : (Var.new info).setNumText .default b = (Var.new info).assign_i_checked .default i := by
          unfold Var.setNumText
          rw [p1, p2]
          simp
        rcases hn with h | h <;> simp only [h, e0, e]
      rcases initInfo_int hE hm hn key with ⟨h, h'⟩ | ⟨v, r, h1, h2, h3, h4⟩
      · exact Or.inl ⟨h, i, ⟨hd, hi⟩, h'⟩
      · refine Or.inr (Or.inr (Or.inr ⟨v, r, h1, h2, h3, ?_⟩))
        unfold GivesBack
        rcases hn with h | h <;> rw [h] <;> exact ⟨i, ⟨hd, hi⟩, h4⟩
    · obtain ⟨hnul, hlen, s, rfl⟩ := ho2 (notnum ht)
      obtain ⟨m, h1, -, h3⟩ := assign_c_ok (v := Var.new info) (WF_new info) ht (encode s) [] hnul
        info.len
      have key : var_value_from_python E .default (.bytes (encode s)) (Var.new info) =
          ((Var.new info).putMem m, caught none (.ok ())) := by
        unfold var_value_from_python Var.setc
        rw [ev, ht]
        simp only
        rw [List.append_nil] at h1
        rw [h1]
      rw [ev, Nat.min_self, List.take_of_length_le hlen] at h3
      refine Or.inr (Or.inr (Or.inr ⟨_, _, initInfo_of key, rfl, enq_putMem ht h3, ?_⟩))
      unfold GivesBack
      rw [ht]
      exact ⟨s, rfl, rfl⟩

example : sampleTemp.Made Env0 ∧ sampleTemp.type ≠ .binary ∧ WithinTypes sampleTemp (.float (.fin (54321 / 200))) ∧
    WithinTypes sampleTemp (.int 27315) ∧ WithinTypes sampleStr (.str "Forlì".toList) ∧
    ¬ WrongKind sampleStr (.str "Forlì".toList) := by
  refine ⟨sampleTemp_made, by decide, ?_, by unfold WithinTypes; decide, ⟨?_, ?_⟩, by simp [WrongKind]⟩
  · intro h; exact absurd h (by decide)
  · rintro (h | h) <;> exact absurd h (by decide)
  · intro _
    unfold NulFree
    decide +kernel

/-- The variable made by a call that succeeds. -/
def Py.get! (r : Ret Var) : Var :=
  match r.done with
  | .returned v => v
  | _ => Var.new sampleTemp

/-- C101 fails for integers that do not fit an `int`: 4294994611 is stored as 27315. -/
theorem C101_not_wide :
    (initInfo Env0 .default sampleTemp (some (.int 4294994611))).done =
      (initInfo Env0 .default sampleTemp (some (.int 27315))).done ∧
    (initInfo Env0 .default sampleTemp (some (.int 27315))).done =
      .returned ((Var.new sampleTemp).putInt 27315) := by
  decide +kernel

/-- A text description of two bytes. -/
def sampleShort : Varinfo := made (Varinfo.raw (WR_VAR 0 1 6) .string (ascii "CCITTIA5") 0 2 0 16)

/-- C101 fails for texts that are cut: what is left of a text may be no text at all. -/
theorem C101_not_cut :
    (initInfo Env0 .default sampleShort (some (.str ['a', 'é']))).done ≠ .ub ∧
    (enq Env0 (Py.get! (initInfo Env0 .default sampleShort (some (.str ['a', 'é']))))).done =
      .raised .unicodeDecode := by
  decide +kernel

/-- C101 fails for texts with a NUL: the rest is lost. -/
theorem C101_not_nul :
    (enq Env0 (Py.get! (initInfo Env0 .default sampleStr (some (.str ['a', '\x00', 'b']))))).done =
      .returned (.str ['a']) := by
  decide +kernel

/-- C101 fails for texts that are not numbers: they make a variable without a value, and
no exception. -/
theorem C101_not_number :
    (initInfo Env0 .default sampleTemp (some (.str ['2', '7', '.', '5']))).done =
      .returned (Var.new sampleTemp).unset := by
  decide +kernel

/-- C101 fails for binary variables: a value without zero bytes is read past the end of
its memory. -/
theorem C101_not_binary :
    (enq Env0 (Py.get! (initInfo Env0 .default sampleBin (some (.bytes [255, 7]))))).done = .ub ∧
    (Py.get! (initInfo Env0 .default sampleBin (some (.bytes [255, 7])))).toVarCore.view =
      some (.bits [255, 7]) := by
  decide +kernel

/-- C101 fails for binary variables with zero bytes: the rest is lost. -/
theorem C101_not_binary_cut :
    (enq Env0 (Py.get! (initInfo Env0 .default sampleBin (some (.bytes [0, 7]))))).done =
      .returned (.bytes []) ∧
    (Py.get! (initInfo Env0 .default sampleBin (some (.bytes [0, 7])))).toVarCore.view =
      some (.bits [0, 7]) := by
  decide +kernel

/-- C101 fails for bytes that are shorter than a binary variable: memory after them is
read. -/
theorem C101_not_binary_short :
    (initInfo Env0 .default (made (Varinfo.raw (WR_VAR 0 63 2) .binary (ascii "UNKNOWN") 0 4 0 32))
      (some (.bytes [1, 2]))).done = .ub := by
  decide +kernel

/-! ## C102 -/

theorem held_set {E : Env} {T : Varcode → Varinfo} {h : List Var} {i : Nat} {v : Var}
    (hh : ∀ v ∈ h, Held E T v) (hv : Held E T v) : ∀ w ∈ h.set i v, Held E T w := by
  intro w hw
  rcases List.mem_or_eq_of_mem_set hw with hw | rfl
  · exact hh w hw
  · exact hv

theorem held_get {E : Env} {T : Varcode → Varinfo} {h : List Var} {i : Nat} {v : Var}
    (hh : ∀ v ∈ h, Held E T v) (hv : h[i]? = some v) : Held E T v :=
  hh v (List.mem_of_getElem? hv)

theorem parse_cases {s : List Byte} (h : varcode_parse s ≠ .ub) :
    (∃ c, varcode_parse s = .ok c) ∨ varcode_parse s = .err .consistency := by
  have chk : ∀ (s : List Byte) (n : Nat) (p : Bool) (e : Err), varcodeCheck s n p = .err e → e = .consistency := by
    intro s n p
    induction s, n, p using varcodeCheck.induct with
    | case1 => intro e h; simp [varcodeCheck] at h
    | case2 n ih => intro e h; rw [varcodeCheck] at h; exact ih e h
    | case3 => intro e h; simp [varcodeCheck] at h
    | case4 c cs n p hd ih => intro e h; rw [varcodeCheck, if_pos hd] at h; exact ih e h
    | case5 c cs n p hd => intro e h; rw [varcodeCheck, if_neg hd] at h; cases h; rfl
  cases hp : varcode_parse s with
  | ok c => exact Or.inl ⟨c, rfl⟩
  | ub => exact absurd hp h
  | err e =>
    right
    unfold varcode_parse at hp
    split at hp
    · cases hp; rfl
    · split at hp
      · cases hp
      · next he => cases hp; rw [chk _ _ _ _ he]
      · cases hp

theorem held_sameTables {E : Env} {T : Varcode → Varinfo} {a b : Var} (ha : Held E T a)
    (hb : Held E T b) : SameTables a b := by
  have key : ∀ {v : Var}, Held E T v → ∀ x ∈ v.toVarCore :: v.attrs, T x.code = x.info := by
    intro v hv x hx
    rcases List.mem_cons.mp hx with rfl | hx
    · exact hv.own.table
    · exact (hv.attrs x hx).table
  intro x hx y hy e
  rw [← key ha x hx, ← key hb y hy, e]

/-- One call. -/
theorem step_held {E : Env} (hE : IsRounding E.fl) (hconv : ∀ u d, E.conv u u d = .ok d)
    {T : Varcode → Varinfo} {h : List Var} (hh : ∀ v ∈ h, Held E T v) {op : Op}
    (hop : OpWithin E T op) :
    (∀ v ∈ (step E .default h op).1, Held E T v) ∧
      ((step E .default h op).2 = .returned () ∨
        ∃ e, (step E .default h op).2 = .raised e ∧ Allows h op e) := by
  have app : ∀ {l : List Var}, (∀ v ∈ l, Held E T v) → ∀ v ∈ h ++ l, Held E T v := by
    intro l hl v hv
    rcases List.mem_append.mp hv with hv | hv
    · exact hh v hv
    · exact hl v hv
  cases op with
  | make info o =>
    cases o with
    | none => exact ⟨app (by simp only [List.mem_singleton]; rintro v rfl; exact Held.new hop), Or.inl rfl⟩
    | some o =>
      obtain ⟨h1, h2⟩ := from_python_done hE hop.1 o hop.2
      rcases hp : var_value_from_python E .default o (Var.new info) with ⟨v, r⟩
      rw [hp] at h1 h2
      simp only at h1 h2
      rcases h2 with rfl | ⟨e, rfl, h2⟩
      all_goals simp only [step, initInfo, hp]
      · exact ⟨app (by simp only [List.mem_singleton]; rintro v rfl; exact h1), Or.inl rfl⟩
      · refine ⟨hh, Or.inr ⟨e, rfl, ?_⟩⟩
        cases o <;> exact h2
  | dup i =>
    simp only [step]
    cases hi : h[i]? with
    | none => exact ⟨hh, Or.inl rfl⟩
    | some v =>
      obtain ⟨w, w1, w2, -⟩ := (held_get hh hi).copy
      simp only [initVar, w1]
      exact ⟨app (by simp only [List.mem_singleton]; rintro v rfl; exact w2), Or.inl rfl⟩
  | enqi i =>
    simp only [step]
    cases hi : h[i]? with
    | none => exact ⟨hh, Or.inl rfl⟩
    | some v =>
      refine ⟨hh, ?_⟩
      simp only
      rcases enqi_done (held_get hh hi) with ⟨r, e⟩ | ⟨hu, e⟩ | ⟨hu, hn, e⟩ <;> rw [e]
      · exact Or.inl rfl
      · exact Or.inr ⟨_, rfl, v, hi, Or.inl ⟨hu, rfl⟩⟩
      · exact Or.inr ⟨_, rfl, v, hi, Or.inr ⟨hu, hn, rfl⟩⟩
  | enqd i =>
    simp only [step]
    cases hi : h[i]? with
    | none => exact ⟨hh, Or.inl rfl⟩
    | some v =>
      refine ⟨hh, ?_⟩
      simp only
      rcases enqd_done (held_get hh hi) with ⟨r, e⟩ | ⟨hu, e⟩ | ⟨hu, hn, e⟩ <;> rw [e]
      · exact Or.inl rfl
      · exact Or.inr ⟨_, rfl, v, hi, Or.inl ⟨hu, rfl⟩⟩
      · exact Or.inr ⟨_, rfl, v, hi, Or.inr ⟨hu, hn, rfl⟩⟩
  | enqc i =>
    simp only [step]
    cases hi : h[i]? with
    | none => exact ⟨hh, Or.inl rfl⟩
    | some v =>
      refine ⟨hh, ?_⟩
      simp only
      rcases enqc_done (held_get hh hi) with ⟨r, e⟩ | ⟨hu, e⟩ | ⟨hu, e⟩ <;> rw [e]
      · exact Or.inl rfl
      · exact Or.inr ⟨_, rfl, v, hi, Or.inl ⟨hu, rfl⟩⟩
      · exact Or.inr ⟨_, rfl, v, hi, Or.inr ⟨hu, rfl⟩⟩
  | enq i =>
    simp only [step]
    cases hi : h[i]? with
    | none => exact ⟨hh, Or.inl rfl⟩
    | some v =>
      refine ⟨hh, ?_⟩
      simp only [enq]
      rcases to_python_done (held_get hh hi) with ⟨r, e⟩ | ⟨hu, e⟩ | ⟨hu, e⟩ <;> rw [e]
      · exact Or.inl rfl
      · exact Or.inr ⟨_, rfl, v, hi, Or.inl ⟨hu, rfl⟩⟩
      · exact Or.inr ⟨_, rfl, v, hi, Or.inr ⟨hu, rfl⟩⟩
  | get i d =>
    simp only [step]
    cases hi : h[i]? with
    | none => exact ⟨hh, Or.inl rfl⟩
    | some v =>
      refine ⟨hh, ?_⟩
      simp only [Py.get]
      cases hs : v.isset with
      | false => exact Or.inl rfl
      | true =>
        simp only [if_true]
        rcases to_python_done (held_get hh hi) with ⟨r, e⟩ | ⟨hu, e⟩ | ⟨hu, e⟩
        · rw [e]; exact Or.inl rfl
        · rw [hs] at hu; cases hu
        · rw [e]; exact Or.inr ⟨_, rfl, v, hi, hu, rfl⟩
  | format i d =>
    simp only [step]
    cases hi : h[i]? with
    | none => exact ⟨hh, Or.inl rfl⟩
    | some v =>
      refine ⟨hh, ?_⟩
      simp only
      rcases format_done (held_get hh hi) d with ⟨r, e⟩ | ⟨e, h1, h2⟩
      · rw [e]; exact Or.inl rfl
      · rw [h1]; exact Or.inr ⟨_, rfl, v, hi, h2⟩
  | str i =>
    simp only [step]
    cases hi : h[i]? with
    | none => exact ⟨hh, Or.inl rfl⟩
    | some v =>
      refine ⟨hh, ?_⟩
      simp only
      rcases str_done (held_get hh hi) with ⟨r, e⟩ | ⟨hu, e⟩ <;> rw [e]
      · exact Or.inl rfl
      · exact Or.inr ⟨_, rfl, v, hi, hu, rfl⟩
  | repr i =>
    simp only [step]
    cases hi : h[i]? with
    | none => exact ⟨hh, Or.inl rfl⟩
    | some v =>
      refine ⟨hh, ?_⟩
      simp only
      rcases repr_done (held_get hh hi) with ⟨r, e⟩ | ⟨hu, e⟩ <;> rw [e]
      · exact Or.inl rfl
      · exact Or.inr ⟨_, rfl, v, hi, hu, rfl⟩
  | enqa i c =>
    simp only [step]
    cases hi : h[i]? with
    | none => exact ⟨hh, Or.inl rfl⟩
    | some v =>
      have hv := held_get hh hi
      simp only [enqa]
      rcases argText_done c with ⟨s, h1, -, t, h2, h3⟩ | ⟨e, h1, h2⟩
      · rw [h1]
        rcases parse_cases (hop s h1) with ⟨k, hk⟩ | hk
        · simp only [hk, Res.ok_bind]
          rcases attrFrom_eq hv.sane.sorted k with ⟨pre, a, post, e1, -, e3⟩ | ⟨-, e3⟩
          · rw [e3]
            obtain ⟨w, w1, w2, -⟩ := (hv.attrFrom e1).copy
            simp only [w1, Res.ok_bind]
            exact ⟨app (by simp only [Option.toList, List.mem_singleton]; rintro v rfl; exact w2), Or.inl rfl⟩
          · rw [e3]
            exact ⟨app (by simp), Or.inl rfl⟩
        · simp only [hk]
          refine ⟨hh, Or.inr ⟨.runtime, rfl, Or.inr ⟨⟨t, h2, ?_⟩, rfl⟩⟩⟩
          rw [h3]
          exact hk
      · rw [h1]
        exact ⟨hh, Or.inr ⟨e, rfl, Or.inl h2⟩⟩
  | seta i j =>
    simp only [step]
    cases hi : h[i]? with
    | none => exact ⟨hh, Or.inl rfl⟩
    | some v =>
      cases hj : h[j]? with
      | none => exact ⟨hh, Or.inl rfl⟩
      | some a =>
        obtain ⟨w, w1, w2, -⟩ := (held_get hh hj).copy
        simp only [seta, Var.seta, w1]
        exact ⟨held_set hh ((held_get hh hi).setaMove w2), Or.inl rfl⟩
  | unseta i c =>
    simp only [step]
    cases hi : h[i]? with
    | none => exact ⟨hh, Or.inl rfl⟩
    | some v =>
      have hv := held_get hh hi
      simp only [unseta]
      rcases argText_done c with ⟨s, h1, -, t, h2, h3⟩ | ⟨e, h1, h2⟩
      · rw [h1]
        rcases parse_cases (hop s h1) with ⟨k, hk⟩ | hk
        · simp only [hk, Res.ok_bind]
          exact ⟨held_set hh (hv.unseta k), Or.inl rfl⟩
        · simp only [hk]
          refine ⟨hh, Or.inr ⟨.runtime, rfl, Or.inr ⟨⟨t, h2, ?_⟩, rfl⟩⟩⟩
          rw [h3]
          exact hk
      · rw [h1]
        exact ⟨hh, Or.inr ⟨e, rfl, Or.inl h2⟩⟩
  | attrs i =>
    simp only [step]
    cases hi : h[i]? with
    | none => exact ⟨hh, Or.inl rfl⟩
    | some v =>
      have hv := held_get hh hi
      obtain ⟨ws, w1, w2, -⟩ := attrObjects_ok hE hconv hv.sane.attrs hv.attrs
      simp only [get_attrs, w1]
      exact ⟨app w2, Or.inl rfl⟩
  | cmp i j n =>
    simp only [step]
    cases hi : h[i]? with
    | none => exact ⟨hh, Or.inl rfl⟩
    | some a =>
      cases hj : h[j]? with
      | none => exact ⟨hh, Or.inl rfl⟩
      | some b =>
        have ha := held_get hh hi
        have hb := held_get hh hj
        simp only [Py.compare, Var.eq_eq ha.sane.wf hb.sane.wf (held_sameTables ha hb)]
        exact ⟨hh, Or.inl rfl⟩

theorem run_held {E : Env} (hE : IsRounding E.fl) (hconv : ∀ u d, E.conv u u d = .ok d)
    {T : Varcode → Varinfo} {ops : List Op} (hops : ∀ op ∈ ops, OpWithin E T op) :
    ∀ {h : List Var}, (∀ v ∈ h, Held E T v) → ∀ v ∈ (run E .default h ops).1, Held E T v := by
  induction ops with
  | nil => exact fun hh => hh
  | cons op ops ih =>
    intro h hh
    exact ih (fun o ho => hops o (List.mem_cons_of_mem _ ho))
      (step_held hE hconv hh (hops op (by simp))).1

/-- C102 (part): after any program, every call returns, or raises an exception that it
may raise; the variables that the program holds stay well formed. Missing: binary
variables (`C101_not_binary`), integers beyond 64 bits (`C102_not_huge`), codes of the
wrong length (`C102_not_code`), variables with the same code from different tables
(`C102_not_tables`), and ranges that include the smallest `int` (`C08_min_undefined`), for
which it fails. -/
theorem C102_calls_partial (E : Env) (hE : IsRounding E.fl) (hconv : ∀ u d, E.conv u u d = .ok d)
    (T : Varcode → Varinfo) (ops : List Op) (op : Op) (hops : ∀ o ∈ ops, OpWithin E T o)
    (hop : OpWithin E T op) :
    let h := (run E .default [] ops).1
    (∀ v ∈ h, Held E T v) ∧
      ((step E .default h op).2 = .returned () ∨
        ∃ e, (step E .default h op).2 = .raised e ∧ Allows h op e) := by
  have hh := run_held hE hconv hops (h := []) (by simp)
  exact ⟨hh, (step_held hE hconv hh hop).2⟩

/-- No call that is allowed ends with `SystemError`. -/
theorem C102_never_system_partial (h : List Var) (op : Op) : ¬ Allows h op .system := by
  have arg : ∀ o, ¬ ArgRaises o .system := by
    intro o ho
    unfold ArgRaises at ho
    split at ho
    · cases ho.2
    · cases ho
    · cases ho
  intro hs
  cases op with
  | make info o =>
    cases o with
    | none => exact hs
    | some o => cases o <;> simp [Allows] at hs
  | _ => simp [Allows, arg] at hs

/-- C102 (part): `==` tells whether two variables show the same code, value and
attributes, and `!=` is its opposite. Missing: as for `C102_calls_partial`. -/
theorem C102_compare_partial (E : Env) (T : Varcode → Varinfo) (a b : Var) (ha : Held E T a)
    (hb : Held E T b) (negate : Bool) :
    (Py.compare a b negate).done = .returned (decide (a.view = b.view) != negate) := by
  unfold Py.compare
  rw [Var.eq_eq ha.sane.wf hb.sane.wf (held_sameTables ha hb)]
  rfl

/-- The table of the samples. -/
def pyTable (c : Varcode) : Varinfo :=
  if c = WR_VAR 0 12 101 then sampleTemp else if c = WR_VAR 0 5 2 then sampleLat else sampleStr

example : FromTable Env0 pyTable sampleTemp ∧ FromTable Env0 pyTable sampleStr :=
  ⟨⟨sampleTemp_made, by decide, fun _ => by decide +kernel, by decide +kernel⟩,
    ⟨sampleStr_made, by decide, fun h => by rcases h with h | h <;> exact absurd h (by decide),
      by decide +kernel⟩⟩

example : ∀ u d, Env0.conv u u d = .ok d := by intro u d; simp [Env0]

/-- A program that uses most calls. -/
def sampleProgram : List Op :=
  [.make sampleTemp (some (.float (.fin (5463 / 20)))), .make sampleLat (some (.int 4450)), .seta 0 1,
    .make sampleStr (some (.str ['F', 'o', 'r', 'l', 'ì'])), .seta 0 2, .attrs 0, .cmp 0 3 false,
    .enqa 0 (.str ['B', '0', '5', '0', '0', '2']), .make sampleTemp none, .enqi 6]

example : (run Env0 .default [] sampleProgram).1.length = 7 ∧
    (run Env0 .default [] sampleProgram).2.getLast? = some (.raised .key) := by
  decide +kernel

/-- C102 fails for integers beyond 64 bits when the variable takes −1: the value −1 is
stored, and the call is a `SystemError`. -/
theorem C102_not_huge :
    (step Env0 .default [] (.make sampleLat (some (.int (2 ^ 70))))).2 = .raised .system ∧
    initInfo Env0 .default sampleLat (some (.int (2 ^ 70))) =
      .ret (some ((Var.new sampleLat).putInt (-1))) (some .overflow) := by
  decide +kernel

/-- C102 fails for short codes: memory after the text is read. -/
theorem C102_not_code :
    (step Env0 .default [Var.new sampleTemp] (.enqa 0 (.str ['B', '0', '1']))).2 = .ub := by
  decide +kernel

/-- C102 fails for comparing variables with the same code from different tables. -/
theorem C102_not_tables :
    (run Env0 .default [] [.make sampleTempStr (some (.str ['x'])), .make sampleTemp (some (.int 5)),
      .cmp 0 1 false]).2.getLast? = some .ub := by
  decide +kernel

/-! ## C103 -/

/-- The variable that an attribute operation uses is one that a program can hold. -/
def AttrOpHeld (E : Env) (T : Varcode → Varinfo) : AttrOp → Prop
  | .seta a | .setaMove a => Held E T a
  | _ => True

theorem attrRun_held {E : Env} {T : Varcode → Varinfo} {ops : List AttrOp}
    (hops : ∀ o ∈ ops, AttrOpHeld E T o) :
    ∀ {v v' : Var}, Held E T v → AttrOp.run v ops = .ok v' → Held E T v' := by
  induction ops with
  | nil => intro v v' hv h; cases h; exact hv
  | cons o ops ih =>
    intro v v' hv h
    rw [AttrOp.run] at h
    obtain ⟨w, h1, h2⟩ := Res.bind_eq_ok.mp h
    refine ih (fun x hx => hops x (List.mem_cons_of_mem _ hx)) ?_ h2
    have ho := hops o (by simp)
    cases o with
    | seta a =>
      obtain ⟨b, b1, b2, -⟩ := Held.copy (E := E) (T := T) ho
      simp only [AttrOp.apply, Var.seta, b1, Res.ok_bind] at h1
      cases h1
      exact hv.setaMove b2
    | setaMove a => cases h1; exact hv.setaMove ho
    | unseta c => cases h1; exact hv.unseta c
    | clear =>
      cases h1
      exact ⟨⟨hv.sane.core, by simp [Var.clear_attrs], by simp [Var.clear_attrs]⟩, hv.own,
        by simp [Var.clear_attrs]⟩

/-- C103 (part): after any sequence of attribute operations, `get_attrs` gives one
variable for each attribute, in increasing order of code, which shows what the map from
codes to last value set has for that code, and has no attributes. Missing: binary
attributes, which are left out of what a program may hold (`Held`). -/
theorem C103_get_attrs_partial (E : Env) (hE : IsRounding E.fl) (hconv : ∀ u d, E.conv u u d = .ok d)
    (T : Varcode → Varinfo) (v : Var) (ops : List AttrOp) (hv : Held E T v)
    (hops : ∀ o ∈ ops, AttrOpHeld E T o) :
    ∃ v' ws, AttrOp.run v ops = .ok v' ∧ (get_attrs E .default v').done = .returned ws ∧
      ws.Pairwise (fun a b => a.code < b.code) ∧ (∀ w ∈ ws, w.attrs = []) ∧
      ∀ info val, (∃ w ∈ ws, w.info = info ∧ w.toVarCore.view = val) ↔
        ops.foldl AttrOp.spec v.attrMap info.code = some (info, val) := by
  have hgood : ∀ o ∈ ops, o.Good := by
    intro o ho
    have := hops o ho
    cases o with
    | seta a => exact Held.sane (E := E) (T := T) this |>.wf
    | setaMove a => exact Held.sane (E := E) (T := T) this |>.wf
    | unseta c => trivial
    | clear => trivial
  obtain ⟨v', h1, h2, -, h4⟩ := C12_refines_map v ops hv.sane.wf hgood
  have hh := attrRun_held hops hv h1
  obtain ⟨ws, w1, -, w2⟩ := attrObjects_ok hE hconv hh.sane.attrs hh.attrs
  obtain ⟨i1, i2⟩ := C12_iteration v' h2
  have hmap : ∀ {l : List VarCore} {ws : List Var}, List.Forall₂ AttrCopy l ws →
      ws.map (·.code) = l.map (·.code) := by
    intro l ws h
    induction h with
    | nil => rfl
    | cons h _ ih =>
      simp only [List.map_cons, ih]
      congr 1
      show (Var.toVarCore _).info.code = _
      rw [h.1]
      rfl
  have hmem : ∀ {l : List VarCore} {ws : List Var}, List.Forall₂ AttrCopy l ws →
      (∀ w ∈ ws, w.attrs = []) ∧ ∀ info val, (∃ w ∈ ws, w.info = info ∧ w.toVarCore.view = val) ↔
        ∃ a ∈ l, a.info = info ∧ a.view = val := by
    intro l ws h
    induction h with
    | nil => simp
    | cons h _ ih =>
      refine ⟨?_, ?_⟩
      · intro w hw
        rcases List.mem_cons.mp hw with rfl | hw
        · exact h.2.2
        · exact ih.1 w hw
      · intro info val
        rw [List.exists_mem_cons_iff, List.exists_mem_cons_iff, ih.2, h.1, h.2.1]
  refine ⟨v', ws, h1, ?_, ?_, (hmem w2).1, ?_⟩
  · unfold get_attrs
    rw [w1]
    rfl
  · have : (ws.map (·.code)).Pairwise (· < ·) := by
      rw [hmap w2]
      exact List.pairwise_map.mpr i1
    exact List.pairwise_map.mp this
  · intro info val
    rw [(hmem w2).2, i2, h4]

/-- A change of the attributes of one variable by a program. -/
inductive Change where
  | set (j : Nat)
  | unset (c : Varcode) (s : List Char)

/-- The call. -/
def Change.op (i : Nat) : Change → Op
  | .set j => .seta i j
  | .unset _ s => .unseta i (.str s)

/-- The call can be made: the attribute is another variable that the program holds, and
the text is that of the code. -/
def Change.Ok (h : List Var) (i : Nat) : Change → Prop
  | .set j => j ≠ i ∧ ∃ a, h[j]? = some a
  | .unset c s => c < 65536 ∧ encode s = varcode_format c

/-- What the change means. -/
def Change.mean (h : List Var) : Change → AttrOp
  | .set j => match h[j]? with
    | some a => .seta a
    | none => .clear
  | .unset c _ => .unseta c

theorem argText_code {s : List Char} {c : Varcode} (hs : encode s = varcode_format c) :
    argText (.str s) = .ok (varcode_format c) := by
  unfold argText
  simp only [hs]
  rw [if_neg]
  intro h0
  unfold varcode_format at h0
  simp only [List.mem_cons, List.not_mem_nil, or_false] at h0
  have dc : ∀ n, (0 : Byte) ≠ digitChar n := by
    intro n e
    have := congrArg UInt8.toNat e
    rw [digitChar_toNat] at this
    change 0 = _ at this
    omega
  rcases h0 with h0 | h0 | h0 | h0 | h0 | h0
  · split at h0 <;> exact absurd h0 (by decide)
  all_goals exact dc _ h0

theorem change_step {E : Env} {T : Varcode → Varinfo} {h : List Var} {i : Nat} {v w : Var}
    (hh : ∀ v ∈ h, Held E T v) (hi : h[i]? = some v) {c : Change} (hc : c.Ok h i) (hw : Held E T w) :
    ∃ w', (c.mean h).apply w = .ok w' ∧
      step E .default (h.set i w) (c.op i) = (h.set i w', .returned ()) ∧ Held E T w' := by
  have hlt : i < h.length := (List.getElem?_eq_some_iff.mp hi).1
  have hget : (h.set i w)[i]? = some w := by simp [hlt]
  cases c with
  | set j =>
    obtain ⟨hj, a, ha⟩ := hc
    have hgj : (h.set i w)[j]? = some a := by
      rw [List.getElem?_set_ne (Ne.symm hj)]
      exact ha
    obtain ⟨b, b1, b2, -⟩ := (held_get hh ha).copy
    refine ⟨w.setaMove b, ?_, ?_, hw.setaMove b2⟩
    · simp only [Change.mean, ha, AttrOp.apply, Var.seta, b1]
      rfl
    · simp only [Change.op, step, hget, hgj, seta, Var.seta, b1]
      show ((h.set i w).set i _, _) = _
      rw [List.set_set]
      rfl
  | unset c s =>
    obtain ⟨hc, hs⟩ := hc
    refine ⟨w.unseta c, rfl, ?_, hw.unseta c⟩
    simp only [Change.op, step, hget, unseta, argText_code hs, C01_parse_format c hc]
    show ((h.set i w).set i _, _) = _
    rw [List.set_set]
    rfl

theorem change_run {E : Env} {T : Varcode → Varinfo} {h : List Var} {i : Nat} {v : Var}
    (hh : ∀ v ∈ h, Held E T v) (hi : h[i]? = some v) :
    ∀ (cs : List Change), (∀ c ∈ cs, c.Ok h i) → ∀ {w : Var}, Held E T w →
    ∃ w', AttrOp.run w (cs.map (Change.mean h)) = .ok w' ∧
      run E .default (h.set i w) (cs.map (Change.op i)) =
        (h.set i w', cs.map fun _ => Done.returned ()) := by
  intro cs
  induction cs with
  | nil => exact fun _ w _ => ⟨w, rfl, rfl⟩
  | cons c cs ih =>
    intro hc w hw
    obtain ⟨x, x1, x2, x3⟩ := change_step hh hi (hc c (by simp)) hw
    obtain ⟨y, y1, y2⟩ := ih (fun d hd => hc d (List.mem_cons_of_mem _ hd)) x3
    refine ⟨y, ?_, ?_⟩
    · rw [List.map_cons, AttrOp.run, x1]
      exact y1
    · simp only [List.map_cons, run, x2, y2]

/-- C103 (part): a program that calls `seta` and `unseta` on a variable changes only that
variable, and only its attributes; then `get_attrs` shows the map from codes to last
value set. Missing: as for `C103_get_attrs_partial`. -/
theorem C103_program_partial (E : Env) (hE : IsRounding E.fl) (hconv : ∀ u d, E.conv u u d = .ok d)
    (T : Varcode → Varinfo) (h : List Var) (i : Nat) (v : Var) (hh : ∀ v ∈ h, Held E T v)
    (hi : h[i]? = some v) (cs : List Change) (hc : ∀ c ∈ cs, c.Ok h i) :
    ∃ v' ws, run E .default h (cs.map (Change.op i)) = (h.set i v', cs.map fun _ => Done.returned ()) ∧
      v'.toVarCore = v.toVarCore ∧ (get_attrs E .default v').done = .returned ws ∧
      ws.Pairwise (fun a b => a.code < b.code) ∧ (∀ w ∈ ws, w.attrs = []) ∧
      ∀ info val, (∃ w ∈ ws, w.info = info ∧ w.toVarCore.view = val) ↔
        (cs.map (Change.mean h)).foldl AttrOp.spec v.attrMap info.code = some (info, val) := by
  have hv := held_get hh hi
  obtain ⟨v', h1, h2⟩ := change_run hh hi cs hc hv
  have hset : h.set i v = h := by
    obtain ⟨hl, e⟩ := List.getElem?_eq_some_iff.mp hi
    rw [← e]
    exact List.set_getElem_self hl
  rw [hset] at h2
  have hops : ∀ o ∈ cs.map (Change.mean h), AttrOpHeld E T o := by
    intro o ho
    obtain ⟨c, hcm, rfl⟩ := List.mem_map.mp ho
    cases c with
    | set j =>
      obtain ⟨-, a, ha⟩ := hc _ hcm
      simp only [Change.mean, ha]
      exact held_get hh ha
    | unset c s => trivial
  obtain ⟨v2, ws, w1, w2, w3, w4, w5⟩ := C103_get_attrs_partial E hE hconv T v _ hv hops
  have hgood : ∀ o ∈ cs.map (Change.mean h), o.Good := by
    intro o ho
    have := hops o ho
    cases o with
    | seta a => exact Held.sane (E := E) (T := T) this |>.wf
    | setaMove a => exact Held.sane (E := E) (T := T) this |>.wf
    | unseta c => trivial
    | clear => trivial
  obtain ⟨v3, x1, -, x3, -⟩ := C12_refines_map v _ hv.sane.wf hgood
  rw [h1] at w1 x1
  cases w1
  cases x1
  exact ⟨v', ws, h2, x3, w2, w3, w4, w5⟩

/-- C103 (part): `enqa` gives a variable with the description and value of the
attribute, or `None` if there is none. Missing: that it has no attributes of its own, for
which it fails (`C103_not_enqa_alone`). -/
theorem C103_enqa_partial (v : Var) (hv : v.WF) (c : Varcode) (hc : c < 65536) (s : List Char)
    (hs : encode s = varcode_format c) :
    match v.attrMap c with
    | none => (Py.enqa v (.str s)).done = .returned none
    | some (info, val) => ∃ w, (Py.enqa v (.str s)).done = .returned (some w) ∧ w.info = info ∧
        w.toVarCore.view = val := by
  have harg := argText_code hs
  have hp : varcode_parse (varcode_format c) = .ok c := C01_parse_format c hc
  rw [Var.attrMap_eq hv]
  unfold Py.enqa
  rw [harg]
  simp only [hp, Res.ok_bind]
  rcases attrFrom_eq hv.sorted c with ⟨pre, a, post, e1, e2, e3⟩ | ⟨e1, e3⟩
  · have hf : v.attrs.find? (fun a => a.code = c) = some a := by
      rw [e1]
      have hpre : ∀ x ∈ pre, ¬ x.code = c := by
        intro x hx he
        have := hv.sorted
        rw [e1] at this
        have := (List.pairwise_append.mp this).2.2 x hx a (by simp)
        omega
      rw [List.find?_append]
      have : pre.find? (fun a => a.code = c) = none := by
        rw [List.find?_eq_none]
        intro x hx
        simpa using hpre x hx
      rw [this]
      simp [e2]
    rw [hf, e3]
    have hw : ({ a with attrs := post } : Var).WF := by
      have hmem : ∀ b, b = a ∨ b ∈ post → b ∈ v.attrs := by
        intro b hb
        rw [e1]
        simp
        tauto
      refine ⟨hv.attrs a (hmem a (Or.inl rfl)), fun b hb => hv.attrs b (hmem b (Or.inr hb)), ?_⟩
      have := hv.sorted
      rw [e1] at this
      exact (List.pairwise_cons.mp (List.pairwise_append.mp this).2.1).2
    obtain ⟨w, w1, -, w3, -, w5, -⟩ := copy_ok hw
    simp only [Option.map_some, w1, Res.ok_bind]
    exact ⟨w, rfl, w3, w5⟩
  · have hf : v.attrs.find? (fun a => a.code = c) = none := by
      rw [List.find?_eq_none]
      intro x hx
      simpa using e1 x hx
    rw [hf, e3]
    rfl

example : (Change.unset (WR_VAR 0 5 2) ['B', '0', '5', '0', '0', '2']).Ok [Var.new sampleTemp] 0 ∧
    (Change.set 1).Ok [Var.new sampleTemp, Var.new sampleStr] 0 :=
  ⟨⟨by decide, by decide +kernel⟩, by decide, _, rfl⟩

/-- C103 fails for `enqa`: the variable that it gives has the attributes that come after
it as its own. -/
theorem C103_not_enqa_alone :
    (run Env0 .default [] [.make sampleTemp none, .make sampleStr (some (.str ['x'])), .seta 0 1,
      .make sampleLat (some (.int 4450)), .seta 0 2, .enqa 0 (.str ['B', '0', '1', '0', '1', '9'])]).1.map
        (fun v => (v.code, v.attrs.map (·.code))) =
      [(WR_VAR 0 12 101, [WR_VAR 0 1 19, WR_VAR 0 5 2]), (WR_VAR 0 1 19, []), (WR_VAR 0 5 2, []),
        (WR_VAR 0 1 19, [WR_VAR 0 5 2])] := by
  decide +kernel

/-- A variable, and an operation on its attributes. -/
example : Held Env0 pyTable (Var.new sampleTemp) ∧
    AttrOpHeld Env0 pyTable (.seta (Var.new sampleStr)) :=
  ⟨Held.new ⟨sampleTemp_made, by decide, fun _ => by decide +kernel, by decide +kernel⟩,
    Held.new ⟨sampleStr_made, by decide, fun h => by rcases h with h | h <;> exact absurd h (by decide),
      by decide +kernel⟩⟩

end Wreport
