import Verif.Lemmas.Notes
import Verif.Props.VarAttr
import Verif.Props.Bulletin

/-!
# Properties of notes

C92: comparisons tell about differences, to whom wants to know.
-/

namespace Wreport

open Spec Notes

/-! ## Comparisons -/

/-- C92 (part): comparing variables from the same tables counts the same with and without
somebody listening. Without, nothing is written; with, complete lines are written, and
nothing exactly if there is no difference. Missing: the smallest number and binary values
without a NUL, compared with a variable that is not set (`C92_not_smallest`,
`C92_not_binary`); and the count is not the amount of notes (`C92_not_amount`). -/
theorem C92_var_partial (E : Env) (desc : Varinfo → List Byte) (a b : Var)
    (ha : ∀ x ∈ a.toVarCore :: a.attrs, x.Showable E true)
    (hb : ∀ x ∈ b.toVarCore :: b.attrs, x.Showable E true) (ht : SameTables a b) :
    ∃ n t, a.diff b = .ok n ∧ diffVar E desc true a b = .ok (n, t) ∧
      diffVar E desc false a b = .ok (n, []) ∧ (t = [] ↔ n = 0) ∧
      (t = [] ∨ t.getLast? = some 10) := by
  have weak : ∀ x : VarCore, x.Showable E true → x.Showable E false :=
    fun x h => ⟨h.sane, h.num, fun e => absurd e (by decide)⟩
  obtain ⟨r, hr⟩ := diffVar_ok (desc := desc) ha hb ht
  obtain ⟨q, hq⟩ := diffVar_ok (desc := desc) (on := false) (fun x hx => weak x (ha x hx))
    (fun x hx => weak x (hb x hx)) ht
  obtain ⟨h1, h2⟩ := diffVar_told hr
  obtain ⟨h3, h4⟩ := diffVar_told hq
  have e : r.1 = q.1 := by
    rw [h1] at h3
    exact Res.ok.inj h3
  refine ⟨r.1, r.2, h1, hr, ?_, h2.told rfl, h2.lines⟩
  rw [hq, e, ← h4.quiet rfl]

/-- Without somebody listening, binary values need no NUL. -/
theorem C92_var_quiet (E : Env) (desc : Varinfo → List Byte) (a b : Var)
    (ha : ∀ x ∈ a.toVarCore :: a.attrs, x.Showable E false)
    (hb : ∀ x ∈ b.toVarCore :: b.attrs, x.Showable E false) (ht : SameTables a b) :
    ∃ n, a.diff b = .ok n ∧ diffVar E desc false a b = .ok (n, []) := by
  obtain ⟨q, hq⟩ := diffVar_ok (desc := desc) (on := false) ha hb ht
  obtain ⟨h3, h4⟩ := diffVar_told hq
  refine ⟨q.1, h3, ?_⟩
  rw [hq, ← h4.quiet rfl]

/-- C92 (part): the same for bulletins. Missing: what is missing for variables, and
bulletins with subsets and without tables (`C57_not_without_tables`). -/
theorem C92_bulletin_partial (E : Env) (desc : Varinfo → List Byte) (a b : Bulletin)
    (ha : a.subsets = [] ∨ a.tables.btable ≠ none) (hb : b.subsets = [] ∨ b.tables.btable ≠ none)
    (hc : ∀ q ∈ a.subsets.zip b.subsets, CanTell E true q.1 q.2) :
    ∃ n t, a.diff b = .ok n ∧ diffBulletin E desc true a b = .ok (n, t) ∧
      diffBulletin E desc false a b = .ok (n, []) ∧ (t = [] ↔ n = 0) ∧
      (t = [] ∨ t.getLast? = some 10) := by
  have weak : ∀ x : VarCore, x.Showable E true → x.Showable E false :=
    fun x h => ⟨h.sane, h.num, fun e => absurd e (by decide)⟩
  obtain ⟨r, hr⟩ := diffBulletin_ok (desc := desc) ha hb hc
  obtain ⟨q, hq⟩ := diffBulletin_ok (desc := desc) (on := false) ha hb fun q hq p hp => by
    obtain ⟨h1, h2, h3⟩ := hc q hq p hp
    exact ⟨fun x hx => weak x (h1 x hx), fun x hx => weak x (h2 x hx), h3⟩
  obtain ⟨h1, h2⟩ := diffBulletin_told hr
  obtain ⟨h3, h4⟩ := diffBulletin_told hq
  have e : r.1 = q.1 := by
    rw [h1] at h3
    exact Res.ok.inj h3
  refine ⟨r.1, r.2, h1, hr, ?_, h2.told rfl, h2.lines⟩
  rw [hq, e, ← h4.quiet rfl]

/-- The note about two texts shows the first and the second. -/
theorem C92_texts (E : Env) (desc : Varinfo → List Byte) (a b : Var) (x y : List Byte)
    (hi : a.info = b.info) (ht : a.info.type = .string) (ha : a.toVarCore.view = some (.text x))
    (hb : b.toVarCore.view = some (.text y)) (hxy : x ≠ y) :
    diffVar E desc true a b = .ok (1, ascii "[" ++ Printer.digits a.info.code ++ ascii " " ++ desc a.info ++
      ascii "] values differ: first is \"" ++ x ++ ascii "\", second is \"" ++ y ++ ascii "\"\n") := by
  have key : ∀ {v : VarCore} {s : List Byte}, v.info.type = .string → v.view = some (.text s) →
      v.isset = true ∧ ∃ m, v.cell = .mem m ∧ cstr m = .ok s := by
    intro v s ht h
    unfold VarCore.view at h
    cases hs : v.isset with
    | false => simp [hs] at h
    | true =>
      cases hm : v.cell with
      | word i => simp [hs, ht, hm] at h
      | mem m =>
        cases hc : cstr m with
        | ok t => simp [hs, ht, hm, hc] at h; exact ⟨rfl, m, rfl, by rw [hc, h]⟩
        | err e => simp [hs, ht, hm, hc] at h
        | ub => simp [hs, ht, hm, hc] at h
  obtain ⟨sa, m, ma, ca⟩ := key ht ha
  obtain ⟨sb, m', mb, cb⟩ := key (hi ▸ ht) hb
  have hcode : a.toVarCore.code = b.toVarCore.code := congrArg Varinfo.code hi
  have hve : a.toVarCore.value_equals b.toVarCore = .ok false := by
    simp [VarCore.value_equals, sa, sb, ht, VarCore.ptr, ma, mb, ca, cb, hxy]
  have hv : Notes.diffValue E desc true a.toVarCore b.toVarCore =
      .ok (some 1, head desc a.toVarCore ++ ascii "values differ: first is \"" ++ x ++
        ascii "\", second is \"" ++ y ++ ascii "\"\n") := by
    unfold Notes.diffValue
    rw [if_neg (by simp [hcode]), if_neg (by simp [sa]), if_neg (by simp [sa]), if_neg (by simp [sb]),
      if_neg (by simp [hi])]
    simp only [ht, hve, Res.ok_bind, VarCore.ptr, ma, mb, logf, if_true, ca, cb, Res.pure_def,
      Bool.false_eq_true, if_false]
  unfold diffVar
  rw [diffChain, hv]
  simp only [Res.ok_bind, head, VarCore.code]
  rw [show ascii "] values differ: first is \"" = ascii "] " ++ ascii "values differ: first is \"" from by
    decide]
  simp only [List.append_assoc]

/-! ## Listeners -/

/-- A part of a program and what its comparisons count and tell. -/
inductive Notes.Prog.Plays : Prog → Course → Prop where
  | compare {run : Bool → Res (Nat × List Byte)} {n t} (h : run true = .ok (n, t))
      (h' : ∃ t', run false = .ok (n, t')) : Plays (.compare run) (.compare n t)
  | set_target (k) : Plays (.set_target k) (.set_target k)
  | skip : Plays .skip .skip
  | seq {p q p' q'} (h : Plays p p') (h' : Plays q q') : Plays (.seq p q) (.seq p' q')
  | collect (k) {p p'} (h : Plays p p') : Plays (.collect k p) (.collect k p')

/-- C92 (part): as long as a `Collect` exists its stream gets the notes, and afterwards who
got them before; counts do not depend on it. Missing: a `Collect` where notes were not sent
anywhere, for which it fails (`C92_not_collect`). -/
theorem C92_collect_partial (p : Prog) (q : Course) (h : p.Plays q) (st : St)
    (hi : q.Inside st.target) :
    p.exec st = .ok ⟨q.after st.target, st.sent ++ q.said st.target, st.counts ++ q.counts⟩ := by
  induction h generalizing st with
  | @compare run n t h h' =>
    obtain ⟨t', h'⟩ := h'
    obtain ⟨target, sent, counts⟩ := st
    cases target with
    | none => simp [Prog.exec, h', Course.after, Course.said, Course.counts]
    | some k => simp [Prog.exec, h, Course.after, Course.said, Course.counts]
  | set_target k => simp [Prog.exec, Course.after, Course.said, Course.counts]
  | skip => simp [Prog.exec, Course.after, Course.said, Course.counts]
  | seq h h' ih ih' =>
    obtain ⟨h1, h2⟩ := hi
    unfold Prog.exec
    rw [ih st h1, Res.ok_bind, ih' _ h2]
    simp [Course.after, Course.said, Course.counts]
  | collect k h ih =>
    obtain ⟨h1, h2⟩ := hi
    obtain ⟨o, ho⟩ := Option.ne_none_iff_exists'.mp h1
    unfold Prog.exec
    simp only
    rw [ih _ h2, Res.ok_bind, ho]
    simp [Course.after, Course.said, Course.counts]

/-- C92 is false in the code: a `Collect` where notes were discarded, as they are by default,
uses a null pointer as a reference when it is destroyed. -/
theorem C92_not_collect (k : Nat) (p : Prog) (st : St) (h : st.target = none) :
    (∀ st', (Prog.collect k p).exec st ≠ .ok st') ∧ (Prog.collect k .skip).exec st = .ub := by
  constructor
  · intro st' e
    unfold Prog.exec at e
    obtain ⟨x, -, e⟩ := Res.bind_eq_ok.mp e
    rw [h] at e
    cases e
  · simp [Prog.exec, h]

/-! ## Samples -/

/-- A description. -/
def noteDesc (_ : Varinfo) : List Byte := ascii "SAMPLE"

/-- A text with an attribute. -/
def noteText (s : String) (attrs : List VarCore) : Var :=
  { ((Var.new sampleStr).sets .default (ascii s)).1 with attrs }

/-- A temperature. -/
def noteTemp (i : Int) : VarCore := ((Var.new sampleTemp).putInt i).toVarCore

/-- A code. -/
def noteCode (i : Int) : VarCore := ((Var.new sampleCode).putInt i).toVarCore

theorem noteTemp_showable : (noteTemp 28815).Showable Env0 true :=
  ⟨⟨⟨28815, rfl, rfl⟩, sampleTemp_made, fun i h => by
    cases h
    decide +kernel⟩, fun i h => by cases h; exact .inl (by decide), fun _ h => by cases h⟩

theorem noteTemp_showable' : (noteTemp 28915).Showable Env0 true :=
  ⟨⟨⟨28915, rfl, rfl⟩, sampleTemp_made, fun i h => by
    cases h
    decide +kernel⟩, fun i h => by cases h; exact .inl (by decide), fun _ h => by cases h⟩

theorem noteText_showable {s : String} {l : List VarCore}
    (h : ∃ m x, ((Var.new sampleStr).sets .default (ascii s)).1.toVarCore = ⟨sampleStr, true, .mem m⟩ ∧
      m.length = 33 ∧ cstr m = .ok x) : (noteText s l).toVarCore.Showable Env0 true := by
  obtain ⟨m, x, h1, h2, h3⟩ := h
  unfold noteText
  simp only [h1]
  refine ⟨⟨Or.inr ⟨m, rfl, h2, fun _ => ⟨x, h3⟩⟩, sampleStr_made, fun i h => ?_⟩, fun i h => ?_, fun _ h => ?_⟩
  · simp [VarCore.view, sampleStr, made, Varinfo.raw, Varinfo.compute_range, h3] at h
  · simp [VarCore.view, sampleStr, made, Varinfo.raw, Varinfo.compute_range, h3] at h
  · cases h

/-- Texts with different attributes: the hypotheses hold, and what is told. -/
example :
    let a := noteText "Bologna" [noteTemp 28815]
    let b := noteText "Bologna" [noteTemp 28915]
    (∀ x ∈ a.toVarCore :: a.attrs, x.Showable Env0 true) ∧
    (∀ x ∈ b.toVarCore :: b.attrs, x.Showable Env0 true) ∧ SameTables a b ∧
    diffVar Env0 noteDesc true a b = .ok (1,
      ascii ("[012101 SAMPLE] values differ: first is 288.150000, second is 289.150000\n" ++
        "  comparing attr of variable B01019 SAMPLE(CCITTIA5): Bologna\n" ++
        "           \nB12101 SAMPLE(K): 288.15\n")) := by
  have hs : (noteText "Bologna" [noteTemp 28815]).toVarCore.Showable Env0 true :=
    noteText_showable ⟨_, ascii "Bologna", rfl, by decide +kernel, by decide +kernel⟩
  refine ⟨fun x hx => ?_, fun x hx => ?_, fun x hx y hy e => ?_, by decide +kernel⟩
  · rcases List.mem_cons.mp hx with rfl | hx
    · exact hs
    · rw [show x = noteTemp 28815 from by simpa [noteText] using hx]
      exact noteTemp_showable
  · rcases List.mem_cons.mp hx with rfl | hx
    · exact hs
    · rw [show x = noteTemp 28915 from by simpa [noteText] using hx]
      exact noteTemp_showable'
  · simp only [noteText, List.mem_cons, List.not_mem_nil, or_false] at hx hy
    rcases hx with rfl | rfl <;> rcases hy with rfl | rfl <;> first | rfl | exact absurd e (by decide +kernel)

/-- Bulletins that differ in two fields. -/
example : diffBulletin Env0 noteDesc true (Bulletin.newBufr true)
    { Bulletin.newBufr true with rep_hour := 12, data_category := 7 } = .ok (2,
      ascii ("Data categories differ (first is 255, second is 7)\n" ++
        "Reference hours differ (first is 0, second is 12)\n")) := by decide +kernel

/-- C92 fails for the smallest number: the note about a variable that is not set negates
it, even without somebody listening, and `diff` needs the value for nothing else. -/
theorem C92_not_smallest :
    let i := made (Varinfo.raw (WR_VAR 0 12 101) .integer (ascii "NUMERIC") 0 10 (-2147483648) 32)
    let v : Var := ((Var.new i).seti .default (-2147483648)).1
    v.toVarCore.view = some (.num (-2147483648)) ∧ v.diff (Var.new i) = .ok 1 ∧
      diffVar Env0 noteDesc false v (Var.new i) = .ub := by
  decide +kernel

/-- C92 fails for binary values: their bytes are read until a NUL, and there need not be
one. -/
theorem C92_not_binary :
    let v : Var := ((Var.new sampleBin).sets .default [0xa5, 0x06]).1
    v.diff (Var.new sampleBin) = .ok 1 ∧
      diffVar Env0 noteDesc false v (Var.new sampleBin) = .ok (1, []) ∧
      diffVar Env0 noteDesc true v (Var.new sampleBin) = .ub := by
  decide +kernel

/-- C92 fails for amounts: two differences are reported by one note. -/
theorem C92_not_amount :
    diffVar Env0 noteDesc true (noteText "x" [noteTemp 1])
      (noteText "x" [noteCode 1, (((Var.new sampleLat).putInt 5)).toVarCore, noteTemp 1]) =
      .ok (2, ascii "[001019 SAMPLE] attributes differ: first has 1, second has 3\n") := by
  decide +kernel

/-- C92 fails for attributes: one that only the second variable has is said to exist only on
the first. -/
theorem C92_not_first :
    diffVar Env0 noteDesc true (noteText "x" [noteTemp 1]) (noteText "x" [noteCode 1]) =
      .ok (1, ascii "[001019 SAMPLE] attributes differ: attribute 002001 exists only on first\n") := by
  decide +kernel

/-- C92 fails for variables from different tables: the second value is shown with the scale
of the first. Here 1.5 and 25 are told to be 1.5 and 2.5. -/
theorem C92_not_scale :
    let i1 := made (Varinfo.raw (WR_VAR 0 12 101) .decimal (ascii "K") 1 5 0 16)
    let i2 := made (Varinfo.raw (WR_VAR 0 12 101) .decimal (ascii "K") 0 5 0 16)
    diffVar Env0 noteDesc true ((Var.new i1).putInt 15) ((Var.new i2).putInt 25) =
      .ok (1, ascii "[012101 SAMPLE] values differ: first is 1.500000, second is 2.500000\n") ∧
    ((Var.new i2).putInt 25).toVarCore.enqd Env0 = .ok 25 := by
  decide +kernel

/-- A program with a block inside a block. -/
def noteProgram : Prog :=
  .seq (.set_target 0) <| .seq (.collect 1 (.seq (.compare fun on =>
      diffVar Env0 noteDesc on (noteText "x" []) (noteText "y" []))
    (.collect 2 (.compare fun on => diffVar Env0 noteDesc on (noteText "x" []) (noteText "x" [])))))
  (.compare fun on => diffVar Env0 noteDesc on (noteText "x" []) (noteText "z" []))

/-- What it counts and tells. -/
def notePlan : Course :=
  .seq (.set_target 0) <| .seq (.collect 1 (.seq
    (.compare 1 (ascii "[001019 SAMPLE] values differ: first is \"x\", second is \"y\"\n"))
    (.collect 2 (.compare 0 []))))
  (.compare 1 (ascii "[001019 SAMPLE] values differ: first is \"x\", second is \"z\"\n"))

theorem noteProgram_plays : noteProgram.Plays notePlan :=
  .seq (.set_target 0) <| .seq (.collect 1 (.seq (.compare (by decide +kernel) ⟨[], by decide +kernel⟩)
    (.collect 2 (.compare (by decide +kernel) ⟨[], by decide +kernel⟩))))
    (.compare (by decide +kernel) ⟨[], by decide +kernel⟩)

example : notePlan.Inside none ∧ noteProgram.exec ⟨none, [], []⟩ =
    .ok ⟨some 0, [(1, ascii "[001019 SAMPLE] values differ: first is \"x\", second is \"y\"\n"),
      (0, ascii "[001019 SAMPLE] values differ: first is \"x\", second is \"z\"\n")], [1, 0, 1]⟩ := by
  have h : notePlan.Inside none := ⟨trivial, ⟨by decide, trivial, by decide, trivial⟩, trivial⟩
  refine ⟨h, ?_⟩
  rw [C92_collect_partial noteProgram notePlan noteProgram_plays _ h]
  rfl

end Wreport
