import Verif.Lemmas.VerboseDec
import Verif.Lemmas.Wellmade
import Verif.Lemmas.WrepRun
import Verif.Props.DDSPrinter
import Verif.Props.Dump
import Verif.Props.Printer
import Verif.Props.Report
import Verif.Props.Verbose
import Verif.Props.WrepSamples
import Verif.Spec.WrepPrint

/-!
# C109, C116, C117 and C118: what `wrep` prints of messages
-/

namespace Wreport

open Spec Process

namespace Dump

theorem filled_iff {fill : Byte} {k : List Byte} {n : Nat × Nat} : Filled fill k n ↔
    k = List.replicate (n.1 - (Crex.decDigits n.2).length) fill ++ Crex.decDigits n.2 := by
  constructor
  · rintro ⟨d, h, rfl⟩
    rw [h.unique (decDigits_decimal _)]
  · rintro rfl
    exact ⟨_, decDigits_decimal _, rfl⟩

theorem forall₂_eq {α β : Type} (f : β → α) {R : α → β → Prop} (h : ∀ a b, R a b ↔ a = f b)
    (as : List α) (bs : List β) : List.Forall₂ R as bs ↔ as = bs.map f := by
  constructor
  · intro h1
    induction h1 with
    | nil => rfl
    | cons h2 _ ih => rw [List.map_cons, ← ih, (h _ _).mp h2]
  · rintro rfl
    induction bs with
    | nil => exact .nil
    | cons b bs ih => exact .cons ((h _ _).mpr rfl) ih

theorem ofTable_iff {α : Type} {t : Option (List Byte × α)} {name : List Byte} :
    ofTable t name ↔ name = tableName t := by
  cases t <;> rfl

/-- A number with zeros in front. -/
def zeros (n : Nat × Nat) : List Byte :=
  List.replicate (n.1 - (Crex.decDigits n.2).length) 48 ++ Crex.decDigits n.2

theorem woven_head (fname : List Byte) (offset : Nat) (tables : Tables) (h : Wrep.Head)
    (ss : List (List Var)) :
    woven [codingName h ++ ascii " ", ascii ":", ascii ":", ascii " ", ascii ":", ascii " ",
        ascii "-", ascii "-", ascii " ", ascii ":", ascii ":", ascii " ", ascii " "]
      ((firstNumbers h ss.length).map zeros) ++ ascii " subsets\n" =
    headLine (Wrep.bulletin fname offset tables ss h) := by
  have z : ∀ n, zeros (0, n) = num n := fun n => by
    unfold zeros num
    rw [Nat.zero_sub]
    exact List.nil_append _
  have y : ∀ w n, zeros (w, n) = Crex.fmtU w n := fun w n => rfl
  cases h with
  | bufr h =>
    simp only [woven, codingName, firstNumbers, List.map_cons, List.map_nil, z, List.zipWith_cons_cons,
      List.zipWith_nil_left, List.flatten_cons, List.flatten_nil, List.append_nil, y]
    unfold headLine Wrep.bulletin Bulletin.encoding_name
    dsimp only
    simp only [List.append_assoc]
  | crex h =>
    simp only [woven, codingName, firstNumbers, List.map_cons, List.map_nil, z, List.zipWith_cons_cons,
      List.zipWith_nil_left, List.flatten_cons, List.flatten_nil, List.append_nil, y]
    unfold headLine Wrep.bulletin Bulletin.newCrex Bulletin.encoding_name
    dsimp only
    simp only [List.append_assoc]
    rfl

theorem edition_details (fname : List Byte) (offset : Nat) (tables : Tables) (h : Wrep.Head)
    (ss : List (List Var)) {last : List Byte} (hl : EditionEnd h last) :
    ascii " " ++ codingName h ++ ascii " details" ++
      woven [ascii ": ed", ascii " t", ascii ":", ascii ":", ascii ":"]
        ((editionNumbers h).map zeros) ++ last =
    details (Wrep.bulletin fname offset tables ss h) := by
  cases h with
  | bufr h =>
    obtain ⟨k, hk, rfl⟩ := hl
    rw [hk.unique (decDigits_decimal _)]
    cases hc : h.compression <;>
      simp [zeros, codingName, woven, editionNumbers, details, Wrep.bulletin, num, hc, ascii]
  | crex h =>
    have hl' : last = _ := hl
    rw [hl']
    cases hc : h.has_check_digit <;>
      simp [zeros, codingName, woven, editionNumbers, details, Wrep.bulletin, num, hc, ascii]

theorem descriptor_lines (fname : List Byte) (offset : Nat) (tables : Tables) (h : Wrep.Head)
    (ss : List (List Var)) :
    h.datadesc.flatMap (fun c => ascii "  " ++ sixDigits c ++ ascii "\n") =
    (Wrep.bulletin fname offset tables ss h).datadesc.flatMap descLine := by
  have e : (fun c => ascii "  " ++ sixDigits c ++ ascii "\n") = descLine := by
    funext c
    unfold descLine
    rw [Printer.digits_eq]
  rw [e]
  cases h <;> rfl

theorem tables_line (fname : List Byte) (offset : Nat) (tables : Tables) (h : Wrep.Head)
    (ss : List (List Var)) :
    ascii " Tables: " ++ tableName tables.btable ++ ascii " " ++ tableName tables.dtable ++
      ascii "\n" = tablesLine (Wrep.bulletin fname offset tables ss h) := by
  cases h <;> rfl

theorem headText_iff (fname : List Byte) (offset : Nat) (tables : Tables) (h : Wrep.Head)
    (ss : List (List Var)) (t : List Byte) : HeadText tables h ss.length t ↔
    t = head (Wrep.bulletin fname offset tables ss h) := by
  have hz : ∀ a b, Filled 48 a b ↔ a = zeros b := fun a b => filled_iff
  constructor
  · rintro ⟨ks, es, last, b, d, h1, h2, hl, h3, h4, rfl⟩
    rw [forall₂_eq _ hz] at h1 h2
    rw [ofTable_iff] at h3 h4
    subst h1 h2 h3 h4
    unfold head
    rw [woven_head fname offset tables h ss, tables_line fname offset tables h ss,
      descriptor_lines fname offset tables h ss, edition_details fname offset tables h ss hl]
  · intro ht
    obtain ⟨last, hl⟩ : ∃ last, EditionEnd h last := by
      cases h with
      | bufr h => exact ⟨_, _, decDigits_decimal _, rfl⟩
      | crex h => exact ⟨_, rfl⟩
    refine ⟨_, _, last, _, _, (forall₂_eq _ hz _ _).mpr rfl, (forall₂_eq _ hz _ _).mpr rfl, hl,
      ofTable_iff.mpr rfl, ofTable_iff.mpr rfl, ?_⟩
    rw [ht]
    unfold head
    rw [woven_head fname offset tables h ss, tables_line fname offset tables h ss,
      descriptor_lines fname offset tables h ss, edition_details fname offset tables h ss hl]

theorem valueLine_iff {E : Env} {desc : Varinfo → List Byte} {v : VarCore} {t : List Byte} :
    ValueLine E desc v t ↔ printOne E desc v = .ok t := by
  unfold ValueLine printOne
  simp only [Res.bind_eq_ok, Res.pure_def, Res.ok.injEq, Printer.digits_eq, eq_comm (b := t)]

theorem attrLines_iff {E : Env} {desc : Varinfo → List Byte} {l : List VarCore} {t : List Byte} :
    (∃ as, List.Forall₂ (ValueLine E desc) l as ∧ t = as.flatMap (List.replicate 11 32 ++ ·)) ↔
    printAttrs E desc l = .ok t := by
  induction l generalizing t with
  | nil =>
    constructor
    · rintro ⟨as, h, rfl⟩
      cases h
      rfl
    · intro h
      cases h
      exact ⟨[], .nil, rfl⟩
  | cons a l ih =>
    simp only [printAttrs, Res.bind_eq_ok, Res.pure_def, Res.ok.injEq]
    constructor
    · rintro ⟨as, h, rfl⟩
      cases h with
      | cons h1 h2 =>
        refine ⟨_, valueLine_iff.mp h1, _, ih.mp ⟨_, h2, rfl⟩, ?_⟩
        rfl
    · rintro ⟨x, h1, y, h2, rfl⟩
      obtain ⟨as, h3, rfl⟩ := ih.mpr h2
      exact ⟨_, .cons (valueLine_iff.mpr h1) h3, rfl⟩

theorem varLines_iff {E : Env} {desc : Varinfo → List Byte} {v : Var} {t : List Byte} :
    VarLines E desc v t ↔ printVar E desc v = .ok t := by
  unfold VarLines printVar
  simp only [Res.bind_eq_ok, Res.pure_def, Res.ok.injEq, ← valueLine_iff, ← attrLines_iff]
  constructor
  · rintro ⟨x, as, h1, h2, rfl⟩
    exact ⟨x, h1, _, ⟨as, h2, rfl⟩, rfl⟩
  · rintro ⟨x, h1, _, ⟨as, h2, rfl⟩, rfl⟩
    exact ⟨x, as, h1, h2, rfl⟩

theorem subsetLines_iff {E : Env} {desc : Varinfo → List Byte} {i j : Nat} {vs : List Var}
    {t : List Byte} : SubsetLines E desc i j vs t ↔ printVars E desc i j vs = .ok t := by
  induction vs generalizing j t with
  | nil =>
    constructor
    · rintro ⟨⟩
      rfl
    · intro h
      cases h
      exact .nil
  | cons v vs ih =>
    simp only [printVars, Res.bind_eq_ok, Res.pure_def, Res.ok.injEq, ← varLines_iff, ← ih]
    constructor
    · intro h
      cases h with
      | cons h1 h2 h3 h4 =>
        refine ⟨_, h3, _, h4, ?_⟩
        rw [h1.unique (decDigits_decimal _), h2.unique (decDigits_decimal _)]
        rfl
    · rintro ⟨x, h3, y, h4, rfl⟩
      exact .cons (decDigits_decimal _) (decDigits_decimal _) h3 h4

theorem allLines_iff {E : Env} {desc : Varinfo → List Byte} {i : Nat} {ss : List (List Var)}
    {t : List Byte} : AllLines E desc i ss t ↔ printSubsets E desc i ss = .ok t := by
  induction ss generalizing i t with
  | nil =>
    constructor
    · rintro ⟨⟩
      rfl
    · intro h
      cases h
      exact .nil
  | cons v vs ih =>
    simp only [printSubsets, Res.bind_eq_ok, Res.pure_def, Res.ok.injEq, ← subsetLines_iff, ← ih]
    constructor
    · intro h
      cases h with
      | cons h1 h2 => exact ⟨_, h1, _, h2, rfl⟩
    · rintro ⟨x, h3, y, h4, rfl⟩
      exact .cons h3 h4

theorem dumpText_iff (fname : List Byte) (offset : Nat) {E : Env} {tables : Tables}
    {desc : Varinfo → List Byte} {h : Wrep.Head} {ss : List (List Var)} {t : List Byte} :
    DumpText E tables desc (h, ss) t ↔
    print E desc (Wrep.bulletin fname offset tables ss h) = .ok t := by
  have e : (Wrep.bulletin fname offset tables ss h).subsets = ss := by cases h <;> rfl
  constructor
  · rintro ⟨x, y, h1, h2, h3⟩
    rw [headText_iff fname offset] at h1
    rw [h3, h1]
    unfold print
    rw [e, allLines_iff.mp h2]
    exact rfl
  · intro hp
    unfold print at hp
    rw [e] at hp
    obtain ⟨y, h1, h2⟩ := Res.bind_eq_ok.mp hp
    exact ⟨_, y, (headText_iff fname offset _ _ _ _).mpr rfl, allLines_iff.mpr h1,
      (Res.ok.inj h2).symm⟩

/-! Variables that have been decoded can be printed. -/

theorem printOne_sane {E : Env} {desc : Varinfo → List Byte} {v : VarCore} (h : v.Sane E) :
    ∃ t, printOne E desc v = .ok t := by
  obtain ⟨x, hx⟩ := h.formatFile (ascii "(undef)")
  exact ⟨_, valueLine_iff.mp ⟨x, hx, rfl⟩⟩

theorem printAttrs_sane {E : Env} {desc : Varinfo → List Byte} {l : List VarCore}
    (h : ∀ a ∈ l, a.Sane E) : ∃ t, printAttrs E desc l = .ok t := by
  induction l with
  | nil => exact ⟨_, rfl⟩
  | cons a l ih =>
    obtain ⟨x, hx⟩ := printOne_sane (desc := desc) (h a (by simp))
    obtain ⟨y, hy⟩ := ih fun b hb => h b (by simp [hb])
    exact ⟨_, by simp only [printAttrs, hx, hy, Res.ok_bind]; rfl⟩

theorem printVar_sane {E : Env} {desc : Varinfo → List Byte} {v : Var} (h : v.Sane E) :
    ∃ t, printVar E desc v = .ok t := by
  obtain ⟨x, hx⟩ := printOne_sane (desc := desc) h.1
  obtain ⟨y, hy⟩ := printAttrs_sane (desc := desc) h.2
  exact ⟨_, by simp only [printVar, hx, hy, Res.ok_bind]; rfl⟩

theorem printVars_sane {E : Env} {desc : Varinfo → List Byte} {i j : Nat} {vs : List Var}
    (h : ∀ v ∈ vs, v.Sane E) : ∃ t, printVars E desc i j vs = .ok t := by
  induction vs generalizing j with
  | nil => exact ⟨_, rfl⟩
  | cons a l ih =>
    obtain ⟨x, hx⟩ := printVar_sane (desc := desc) (h a (by simp))
    obtain ⟨y, hy⟩ := ih (fun b hb => h b (by simp [hb])) (j := j + 1)
    exact ⟨_, by simp only [printVars, hx, hy, Res.ok_bind]; rfl⟩

theorem printSubsets_sane {E : Env} {desc : Varinfo → List Byte} {i : Nat} {ss : List (List Var)}
    (h : ∀ vs ∈ ss, ∀ v ∈ vs, v.Sane E) : ∃ t, printSubsets E desc i ss = .ok t := by
  induction ss generalizing i with
  | nil => exact ⟨_, rfl⟩
  | cons a l ih =>
    obtain ⟨x, hx⟩ := printVars_sane (desc := desc) (i := i) (j := 0) (h a (by simp))
    obtain ⟨y, hy⟩ := ih (fun b hb => h b (by simp [hb])) (i := i + 1)
    exact ⟨_, by simp only [printSubsets, hx, hy, Res.ok_bind]; rfl⟩

end Dump

namespace Wrep

/-- The tables for a message, when they are loaded for it alone. -/
theorem readWhole_sane {M : Machine} (hE : IsRounding M.S.E.fl) (hO : M.O.Sane M.S.E) {crex : Bool}
    {raw : List Byte} {h : Head} {ss : List (List Var)}
    (hr : decodedAlone M crex raw = some (.ok (h, ss))) :
    ∀ vs ∈ ss, ∀ v ∈ vs, v.Sane M.S.E := by
  unfold decodedAlone at hr
  cases crex with
  | true =>
    obtain ⟨r, h1, h2⟩ := Option.map_eq_some_iff.mp hr
    obtain ⟨y, rfl, h2⟩ := Res.bind_eq_ok.mp h2
    cases h2
    exact decodeCrex_sane (fresh_inv _ _) hE hO h1
  | false =>
    simp only [Option.some.injEq] at hr
    obtain ⟨y, h1, h2⟩ := Res.bind_eq_ok.mp hr
    cases h2
    exact decodeBufr_sane (fresh_inv _ _) hE hO h1

theorem desc_described (M : Machine) (h : Head) :
    M.desc (tablePath (loaded M (.fresh M.dirs) h).2.1) = described M h := by
  unfold tablePath described
  cases (loaded M (.fresh M.dirs) h).2.1.btable <;> rfl

theorem tablePath_eq (t : Tables) : tablePath t = (t.btable.map Prod.fst).getD [] := by
  unfold tablePath
  cases t.btable <;> rfl

theorem readWhole_alone (M : Machine) (crex : Bool) (raw : List Byte) :
    (readWhole M crex (.fresh M.dirs) raw).2 = decodedAlone M crex raw := by
  cases crex <;> rfl

theorem contents_ended {M : Machine} (hE : IsRounding M.S.E.fl) (hO : M.O.Sane M.S.E) {crex : Bool}
    {fname raw : List Byte} {offset : Nat} {t : List Byte} :
    printContents M (.fresh M.dirs) fname raw offset (decodedAlone M crex raw) = .ended t ↔
    SaidOf (decodedAlone M crex raw) (fun a t =>
      DumpText M.S.E (loaded M (.fresh M.dirs) a.1).2.1 (described M a.1) a t) t := by
  unfold SaidOf
  rcases hr : decodedAlone M crex raw with - | (⟨h, ss⟩ | e | -)
  · simp [printContents]
  · obtain ⟨x, hx⟩ := Dump.printSubsets_sane (E := M.S.E) (desc := described M h) (i := 0)
      (readWhole_sane hE hO hr)
    have e : (bulletin fname offset (loaded M (.fresh M.dirs) h).2.1 ss h).subsets = ss := by
      cases h <;> rfl
    have hp : Dump.print M.S.E (described M h)
        (bulletin fname offset (loaded M (.fresh M.dirs) h).2.1 ss h) =
        .ok (Dump.head (bulletin fname offset (loaded M (.fresh M.dirs) h).2.1 ss h) ++ x) := by
      unfold Dump.print
      rw [e, hx]
      rfl
    simp only [printContents, desc_described, hp, printed, Ran.ended.injEq]
    constructor
    · rintro rfl
      exact .inr ⟨_, rfl, (Dump.dumpText_iff fname offset).mpr hp⟩
    · rintro (⟨_, h1, -⟩ | ⟨a, h1, h2⟩)
      · cases h1
      · cases h1
        rw [Dump.dumpText_iff fname offset, hp] at h2
        exact Res.ok.inj h2
  · simp [printContents, eq_comm]
  · simp [printContents]

end Wrep

/-- C116: with any command line that asks for the contents of messages, as is done when no
other action is named, `wrep` writes the head and all the variables with their attributes and
values of each message that can be decoded, in the order in which the files have them, and
nothing else; each message is read as if it were the only one. It does end unless decoding one of
the messages, alone, does not end or is not defined. -/
theorem C116_contents (M : Wrep.Machine) (hE : IsRounding M.S.E.fl) (hO : M.O.Sane M.S.E)
    {args files : List (List Byte)} {o : Wrep.Options}
    (hc : Command args .new o files) (ha : o.action = .dump) (hf : files ≠ [])
    (out : List Byte) (status : Nat) :
    Wrep.main M args = .ended (out, status) ↔ status = 0 ∧
      ∃ mss, List.Forall₂ (fun f ms => FileHolds (Stream.readOf o.crex) (M.inputs f) ms) files mss ∧
      ∃ texts, List.Forall₂ (fun (x : List Byte × Stream.Msg) t =>
        SaidOf (decodedAlone M o.crex x.2.1) (fun a t =>
          DumpText M.S.E (Wrep.loaded M (.fresh M.dirs) a.1).2.1 (described M a.1) a t) t)
        (named files mss) texts ∧ out = texts.flatten := by
  rw [Wrep.main_reads M hc (by rw [ha]; exact ⟨nofun, nofun, nofun⟩) hf]
  rw [Wrep.Ran.andThen_ended]
  simp only [Wrep.Ran.ended.injEq, Prod.mk.injEq,
    Wrep.readFiles_ended (o := o) (by rw [ha]; nofun), Wrep.about, ha, Wrep.readWhole_alone, Wrep.contents_ended hE hO]
  constructor
  · rintro ⟨a, h, rfl, rfl⟩
    exact ⟨rfl, h⟩
  · rintro ⟨rfl, h⟩
    exact ⟨_, h, rfl, rfl⟩

/-- C116 with a file that has a message of which the table is not there, and one that is
printed. -/
example :
    Command [ascii "a"] .new Wrep.Options.new [ascii "a"] ∧ Wrep.Options.new.action = .dump ∧
    IsRounding printerMachine.S.E.fl ∧ printerMachine.O.Sane printerMachine.S.E ∧
    Wrep.main printerMachine [ascii "a"] = .ended (utf8 (
      "BUFR 1:2:3 0:0 2026-11-15 03:04:05 5 1 subsets\n" ++
      " Tables: /t/B000000000001900.txt /t/D000000000001900.txt\n" ++
      " Data descriptors:\n  001001\n  201132\n  012101\n" ++
      " BUFR details: ed4 t0:19:0 - osl2\n Variables:\n" ++
      "  [0][0] 001001 SOMETHING(NUMERIC): 11\n  [0][1] 012101 SOMETHING(K): 273.15\n"), 0) := by
  refine ⟨.file (by decide) .nil, rfl, (sampleCtx_fit False).rounding, (sampleCtx_fit False).opts, ?_⟩
  decide +kernel

/-! ## C117 -/

namespace Wrep

/-- What the tables of a message say about elements. -/
abbrev textsOf (M : Machine) (h : Head) (C : Ctx) : Texts :=
  texts (described M h) (((loaded M (.fresh M.dirs) h).2.1.btable.map Prod.fst).getD []) C

theorem dds_ended {M : Machine} {fname raw : List Byte}
    {r : Option (Res (Head × Ctx × TableCaches))} {t : List Byte} :
    printDds M (.fresh M.dirs) fname raw r = .ended t ↔
    SaidOf r (fun a t =>
      (∃ e, Printer.print_datadesc a.2.1 (textsOf M a.1 a.2.1) M.depth a.1.datadesc 0 a.2.2 = .err e ∧
        t = M.other .dumpDds fname raw) ∨
      Printer.print_datadesc a.2.1 (textsOf M a.1 a.2.1) M.depth a.1.datadesc 0 a.2.2 = .ok t) t := by
  unfold SaidOf
  rcases r with - | (⟨h, C, c⟩ | e | -)
  · simp [printDds]
  · simp only [printDds, Option.some.injEq, reduceCtorEq, false_and, exists_false, false_or,
      Res.ok.injEq, exists_eq_left']
    rw [desc_described, tablePath_eq]
    cases hp : Printer.print_datadesc C (textsOf M h C) M.depth h.datadesc 0 c <;>
      simp [printed, eq_comm]
  · simp [printDds, eq_comm]
  · simp [printDds]

end Wrep

/-- C117, in part: with any command line that asks for the data descriptors of messages, `wrep`
writes the outline of each message that can be read, in the order in which the files have them,
and nothing else; each message is read as if it were the only one. Missing: printing gives up
on some descriptors, see `C80_not_printed`; bitmaps are left out, see `C80_not_bitmap`; of
CREX messages all has to be read, see `C117_not_crex`. -/
theorem C117_outline_partial (M : Wrep.Machine) {args files : List (List Byte)} {o : Wrep.Options}
    (hc : Command args .new o files) (ha : o.action = .dumpDds) (hf : files ≠ [])
    (out : List Byte) (status : Nat) (h : Wrep.main M args = .ended (out, status)) :
    status = 0 ∧
      ∃ mss, List.Forall₂ (fun f ms => FileHolds (Stream.readOf o.crex) (M.inputs f) ms) files mss ∧
      ∃ texts, List.Forall₂ (fun (x : List Byte × Stream.Msg) t =>
        SaidOf (Wrep.readHead M o.crex (.fresh M.dirs) x.2.1).2 (fun a t =>
          (∃ e, Printer.print_datadesc a.2.1 (Wrep.textsOf M a.1 a.2.1) M.depth a.1.datadesc 0
              a.2.2 = .err e) ∨
          (Printer.OneLine (Wrep.textsOf M a.1 a.2.1) →
            ∃ ls w, Outline a.2.1.dtable.query 0 false a.1.datadesc ls w ∧ ShowsLines 0 2 ls t)) t)
        (named files mss) texts ∧ out = texts.flatten := by
  rw [Wrep.main_reads M hc (by rw [ha]; exact ⟨nofun, nofun, nofun⟩) hf, Wrep.Ran.andThen_ended] at h
  obtain ⟨a, h1, h2⟩ := h
  cases h2
  obtain ⟨mss, hm, texts, h3, rfl⟩ := (Wrep.readFiles_ended (o := o) (by rw [ha]; nofun)).mp h1
  refine ⟨rfl, mss, hm, texts, h3.imp fun x t hx => ?_, rfl⟩
  simp only [Wrep.about, ha] at hx
  rcases Wrep.dds_ended.mp hx with h4 | ⟨a, h4, h5⟩
  · exact .inl h4
  · refine .inr ⟨a, h4, ?_⟩
    rcases h5 with ⟨e, h5, -⟩ | h5
    · exact .inl ⟨e, h5⟩
    · exact .inr fun hX => C80_outline_partial _ _ hX _ _ _ _ _ h5

/-- C117 does not hold: the header of a CREX message can be read and its tables are there, and
nothing is written about it. -/
theorem C117_not_crex :
    (Crex.Decoder.decode_header crexMachine.fuel (crexText "03" "27")).map (fun r => r >>= fun x =>
      context crexMachine.S crexMachine.O
        ((fresh crexMachine.dirs).load_crex crexMachine.S .new (crexId x.2)) >>= fun t =>
      Printer.print_datadesc t.1 (Wrep.textsOf crexMachine (.crex x.2) t.1) crexMachine.depth
        x.2.datadesc 0 t.2) = some (.ok (ascii "012101 SOMETHING[C]\n")) ∧
    crexMachine.inputs (ascii "d") = some (crexText "03" "27") ∧
    Wrep.main crexMachine [ascii "-c", ascii "-D", ascii "d"] = .ended ([], 0) := by
  decide +kernel

/-- Outlines are asked for. -/
example :
    Command [ascii "-D", ascii "b"] .new { Wrep.Options.new with action := .dumpDds } [ascii "b"] ∧
    Wrep.main printerMachine [ascii "-D", ascii "b"] = .ended (utf8
      "001001 SOMETHING[NUMERIC]\n201132 change data width to 4\n012101 SOMETHING[K]\n", 0) := by
  refine ⟨?_, by decide +kernel⟩
  exact .letter (e := (68, ascii "dds", fun o => { o with action := .dumpDds }))
      (by simp [documented]) (by decide) (.file (by decide) .nil)

/-! ## C118 -/

namespace Wrep

theorem content_iff {E : Env} {desc : Varinfo → List Byte} {x : Content} {t : List Byte} :
    ContentLines E desc x t ↔ contentText E desc x = .ok t := by
  cases x with
  | var v => exact Dump.varLines_iff
  | attr v =>
    simp only [ContentLines, contentText, Res.bind_eq_ok, Res.pure_def, Res.ok.injEq,
      Dump.valueLine_iff, eq_comm (b := t)]
  | undef => simp only [ContentLines, contentText, Res.ok.injEq, eq_comm (b := t)]
  | field v => exact Dump.valueLine_iff
  | noField n =>
    constructor
    · rintro ⟨k, hk, rfl⟩
      rw [hk.unique (decDigits_decimal _)]
      exact rfl
    · intro h
      exact ⟨_, decDigits_decimal n, (Res.ok.inj h).symm⟩

theorem item_iff {E : Env} {desc : Varinfo → List Byte} {x : Item} {t : List Byte} :
    ItemLines E desc x t ↔ itemText E desc x = .ok t := by
  unfold itemText ItemLines
  simp only [Res.bind_eq_ok, Res.pure_def, Res.ok.injEq, ← content_iff, Dump.filled_iff,
    Printer.digits_eq]
  constructor
  · rintro ⟨a, b, c, rfl, rfl, h, rfl⟩
    exact ⟨c, h, rfl⟩
  · rintro ⟨c, h, rfl⟩
    exact ⟨_, _, c, rfl, rfl, h, rfl⟩

theorem items_iff {E : Env} {desc : Varinfo → List Byte} {l : List Item} {t : List Byte} :
    (∃ ts, List.Forall₂ (ItemLines E desc) l ts ∧ t = ts.flatten) ↔ itemsText E desc l = .ok t := by
  induction l generalizing t with
  | nil =>
    constructor
    · rintro ⟨ts, h, rfl⟩
      cases h
      rfl
    · intro h
      cases h
      exact ⟨[], .nil, rfl⟩
  | cons x l ih =>
    simp only [itemsText, Res.bind_eq_ok, Res.pure_def, Res.ok.injEq, ← item_iff, ← ih]
    constructor
    · rintro ⟨ts, h, rfl⟩
      cases h with
      | cons h1 h2 => exact ⟨_, h1, _, ⟨_, h2, rfl⟩, rfl⟩
    · rintro ⟨x, h1, _, ⟨ts, h2, rfl⟩, rfl⟩
      exact ⟨_, .cons h1 h2, rfl⟩

/-- A message with its structure, when the tables for it are `C`. -/
def StructureTold (M : Machine) (a : Head × List (List Var)) (t : List Byte) : Prop :=
  ∃ C c items head ts, context M.S M.O (loaded M (.fresh M.dirs) a.1) = .ok (C, c) ∧
    DDSPrinter.printSubsets C M.depth a.1.datadesc 0 a.2 c = .ok items ∧
    HeadText (loaded M (.fresh M.dirs) a.1).2.1 a.1 a.2.length head ∧
    List.Forall₂ (ItemLines M.S.E (described M a.1)) items ts ∧ t = head ++ ts.flatten

theorem structure_iff {M : Machine} {fname : List Byte} {offset : Nat} {h : Head}
    {ss : List (List Var)} {t : List Byte} :
    structureText M (.fresh M.dirs) fname offset h ss = .ok t ↔ StructureTold M (h, ss) t := by
  constructor
  · intro hp
    unfold structureText at hp
    obtain ⟨⟨C, c⟩, h1, hp⟩ := Res.bind_eq_ok.mp hp
    obtain ⟨items, h2, hp⟩ := Res.bind_eq_ok.mp hp
    obtain ⟨x, h3, hp⟩ := Res.bind_eq_ok.mp hp
    rw [desc_described] at h3
    obtain ⟨ts, h4, rfl⟩ := items_iff.mpr h3
    exact ⟨C, c, items, _, ts, h1, h2, (Dump.headText_iff fname offset _ _ _ _).mpr rfl, h4,
      (Res.ok.inj hp).symm⟩
  · rintro ⟨C, c, items, head, ts, h1, h2, h3, h4, rfl⟩
    rw [Dump.headText_iff fname offset] at h3
    unfold structureText
    simp only [h1, Res.ok_bind, h2, desc_described, items_iff.mp ⟨ts, h4, rfl⟩, h3]
    exact rfl

theorem structure_ended {M : Machine} {fname raw : List Byte} {offset : Nat}
    {r : Option (Res (Head × List (List Var)))} {t : List Byte} :
    printStructure M (.fresh M.dirs) fname raw offset r = .ended t ↔
    SaidOf r (fun a t =>
      (∃ e, structureText M (.fresh M.dirs) fname offset a.1 a.2 = .err e ∧
        t = M.other .dumpStructure fname raw) ∨ StructureTold M a t) t := by
  unfold SaidOf
  rcases r with - | (⟨h, ss⟩ | e | -)
  · simp [printStructure]
  · simp only [printStructure, Option.some.injEq, reduceCtorEq, false_and, exists_false, false_or,
      Res.ok.injEq, exists_eq_left']
    rw [← structure_iff (fname := fname) (offset := offset)]
    cases hp : structureText M (.fresh M.dirs) fname offset h ss <;> simp [printed, eq_comm]
  · simp [printStructure, eq_comm]
  · simp [printStructure]

end Wrep

/-- C118, in part: with any command line that asks for the structure of messages, `wrep`
writes the head and the items of each message that can be decoded, in the order in which the
files have them, and nothing else; each message is read as if it were the only one. The items
are those of C81. It does end unless decoding or printing one of the messages, alone, does not end
or is not defined. Missing: printing gives up on some operators, see `C81_not_printed`; not each
item ends its line, see `C118_not_lines`. -/
theorem C118_items_partial (M : Wrep.Machine) {args files : List (List Byte)} {o : Wrep.Options}
    (hc : Command args .new o files) (ha : o.action = .dumpStructure) (hf : files ≠ [])
    (out : List Byte) (status : Nat) :
    Wrep.main M args = .ended (out, status) ↔ status = 0 ∧
      ∃ mss, List.Forall₂ (fun f ms => FileHolds (Stream.readOf o.crex) (M.inputs f) ms) files mss ∧
      ∃ texts, List.Forall₂ (fun (x : List Byte × Stream.Msg) t =>
        SaidOf (decodedAlone M o.crex x.2.1) (fun a t =>
          (∃ e, Wrep.structureText M (.fresh M.dirs) x.1 x.2.2 a.1 a.2 = .err e ∧
            t = M.other .dumpStructure x.1 x.2.1) ∨ Wrep.StructureTold M a t) t)
        (named files mss) texts ∧ out = texts.flatten := by
  rw [Wrep.main_reads M hc (by rw [ha]; exact ⟨nofun, nofun, nofun⟩) hf]
  rw [Wrep.Ran.andThen_ended]
  simp only [Wrep.Ran.ended.injEq, Prod.mk.injEq,
    Wrep.readFiles_ended (o := o) (by rw [ha]; nofun), Wrep.about, ha, Wrep.readWhole_alone, Wrep.structure_ended]
  constructor
  · rintro ⟨a, h, rfl, rfl⟩
    exact ⟨rfl, h⟩
  · rintro ⟨rfl, h⟩
    exact ⟨_, h, rfl, rfl⟩

theorem forall₂_cut {α β : Type} {R : α → β → Prop} {a b : List α} {ts : List β}
    (h : List.Forall₂ R (a ++ b) ts) :
    ∃ t u, List.Forall₂ R a t ∧ List.Forall₂ R b u ∧ ts = t ++ u := by
  induction a generalizing ts with
  | nil => exact ⟨[], ts, .nil, h, rfl⟩
  | cons x a ih =>
    cases h with
    | cons h1 h2 =>
      obtain ⟨t, u, h3, h4, rfl⟩ := ih h2
      exact ⟨_ :: t, u, .cons h1 h3, h4, rfl⟩

/-- C118: the items of a message are those of its subsets in order, with the numbers of the
subsets. -/
theorem C118_subsets_partial (M : Wrep.Machine) {a : Wrep.Head × List (List Var)} {t : List Byte}
    (h : Wrep.StructureTold M a t) :
    ∃ head parts, HeadText (Wrep.loaded M (.fresh M.dirs) a.1).2.1 a.1 a.2.length head ∧
      List.Forall₂ (fun (x : Nat × List Var) part =>
        ∃ items ts, (∀ i ∈ items, i.subset_no = x.1) ∧
          List.Forall₂ (ItemLines M.S.E (described M a.1)) items ts ∧ part = ts.flatten ∧
          ∃ C c c', context M.S M.O (Wrep.loaded M (.fresh M.dirs) a.1) = .ok (C, c) ∧
            ∃ c1, DDSPrinter.printSubset C M.depth a.1.datadesc x.1 x.2 c1 = .ok (c', items))
        ((List.range a.2.length).zip a.2) parts ∧ t = head ++ parts.flatten := by
  obtain ⟨C, c, items, head, ts, h1, h2, h3, h4, rfl⟩ := h
  obtain ⟨parts, rfl, h5, h6⟩ := C81_subsets_partial _ _ _ _ _ _ _ h2
  clear h2
  -- the texts of the parts
  have key : ∀ (n : Nat) (ss : List (List Var)) (parts : List (List Item)) (ts : List (List Byte)),
      parts.length = ss.length → List.Forall₂ (ItemLines M.S.E (described M a.1)) parts.flatten ts →
      (∀ k part subset, parts[k]? = some part → ss[k]? = some subset →
        (∀ x ∈ part, x.subset_no = n + k) ∧ ∃ c1 c',
          DDSPrinter.printSubset C M.depth a.1.datadesc (n + k) subset c1 = .ok (c', part)) →
      ∃ texts, List.Forall₂ (fun (x : Nat × List Var) part =>
        ∃ items ts, (∀ i ∈ items, i.subset_no = x.1) ∧
          List.Forall₂ (ItemLines M.S.E (described M a.1)) items ts ∧ part = ts.flatten ∧
          ∃ C c c', context M.S M.O (Wrep.loaded M (.fresh M.dirs) a.1) = .ok (C, c) ∧
            ∃ c1, DDSPrinter.printSubset C M.depth a.1.datadesc x.1 x.2 c1 = .ok (c', items))
        ((List.range' n ss.length).zip ss) texts ∧ ts.flatten = texts.flatten := by
    intro n ss
    induction ss generalizing n with
    | nil =>
      intro parts ts hl ht _
      have : parts = [] := List.length_eq_zero_iff.mp hl
      subst this
      cases ht
      exact ⟨[], .nil, rfl⟩
    | cons s ss ih =>
      intro parts ts hl ht hp
      cases parts with
      | nil => cases hl
      | cons p parts =>
        rw [List.flatten_cons] at ht
        obtain ⟨ts1, ts2, ht1, ht2, rfl⟩ := forall₂_cut ht
        obtain ⟨texts, h7, h8⟩ := ih (n + 1) parts ts2 (by simpa using hl) ht2
          (fun k part subset e1 e2 => by
            have := hp (k + 1) part subset (by simpa using e1) (by simpa using e2)
            rwa [show n + (k + 1) = n + 1 + k by omega] at this)
        obtain ⟨h9, c1, c', h10⟩ := hp 0 p s rfl rfl
        refine ⟨ts1.flatten :: texts, ?_, by simp [h8]⟩
        rw [List.length_cons, List.range'_succ, List.zip_cons_cons]
        exact .cons ⟨p, ts1, h9, ht1, rfl, C, c, c', h1, c1, h10⟩ h7
  obtain ⟨texts, h7, h8⟩ := key 0 a.2 parts ts h5 h4 (fun k part subset e1 e2 => by
    simpa using h6 k part subset e1 e2)
  rw [← List.range_eq_range'] at h7
  exact ⟨head, texts, h3, h7, by rw [h8]⟩

/-- A table with the meaning of associated fields. -/
def fieldTableText : List Byte := utf8 (
  " 012101 TEMPERATURE/AIR TEMPERATURE                                      K                          2            0  16 C                         2         4\n" ++
  " 031021 ASSOCIATED FIELD SIGNIFICANCE                                    CODE TABLE                 0            0   6 CODE TABLE                0         2\n")

def fieldSystem : System where
  E := Env0
  names := twoVersions.names
  files := fun k =>
    if k = ascii "/t/B000000000001900.txt" then some fieldTableText else twoVersions.files k

/-- A message with an associated field whose meaning has no attribute. -/
def fieldMessage : List Byte :=
  bytesOf (do
    let t ← Vartable.load_bufr Env0 fieldTableText
    let i ← t.query (WR_VAR 0 31 21)
    let j ← t.query (WR_VAR 0 12 101)
    encodeMessage { sampleCtx with btable := t } 1
      { sampleHeader with
        originating_centre := 0, originating_subcentre := 0,
        datadesc := [WR_VAR 2 4 2, WR_VAR 0 31 21, WR_VAR 0 12 101, WR_VAR 2 4 0] }
      [[(Var.new i).putInt 9, (Var.new j).putInt 27315]] noCaches)

def fieldMachine : Wrep.Machine :=
  { printerMachine with
    S := fieldSystem
    inputs := fun f => if f = ascii "f" then some fieldMessage else none }

/-- C118 does not hold: there are three items of the message on two lines. -/
theorem C118_not_lines :
    Wrep.main fieldMachine [ascii "-s", ascii "f"] = .ended (utf8 (
      "BUFR 1:2:3 0:0 2026-11-15 03:04:05 5 1 subsets\n" ++
      " Tables: /t/B000000000001900.txt /t/D000000000001900.txt\n" ++
      " Data descriptors:\n  204002\n  031021\n  012101\n  204000\n" ++
      " BUFR details: ed4 t0:19:0 - osl2\n Variables:\n" ++
      " 0. 1 031021: 031021 SOMETHING(CODE TABLE): 9\n" ++
      " 0. 2 012101: associated field with significance 9 is not present" ++
      " 0. 2 012101: 012101 SOMETHING(K): 273.15\n"), 0) := by
  decide +kernel

/-- The structure is asked for. -/
example :
    Command [ascii "b", ascii "-s"] .new { Wrep.Options.new with action := .dumpStructure } [ascii "b"] ∧
    Wrep.main printerMachine [ascii "b", ascii "-s"] = .ended (utf8 (
      "BUFR 1:2:3 0:0 2026-11-15 03:04:05 5 1 subsets\n" ++
      " Tables: /t/B000000000001900.txt /t/D000000000001900.txt\n" ++
      " Data descriptors:\n  001001\n  201132\n  012101\n" ++
      " BUFR details: ed4 t0:19:0 - osl2\n Variables:\n" ++
      " 0. 1 001001: 001001 SOMETHING(NUMERIC): 11\n" ++
      " 0. 2 012101: 012101 SOMETHING(K): 273.15\n"), 0) := by
  refine ⟨?_, by decide +kernel⟩
  exact .file (by decide) (.letter (e := (115, ascii "structure", fun o => { o with action := .dumpStructure }))
      (by simp [documented]) (by decide) .nil)

/-! ## C109 -/

namespace Wrep

theorem trace_told {M : Machine} (hE : IsRounding M.S.E.fl) (hO : M.O.Sane M.S.E)
    (hk : HookKeepsInfo M.O) {raw : List Byte}
    {h : Header} {ss : List (List Var)}
    (hr : decodedAlone M false raw = some (.ok (.bufr h, ss))) :
    ∃ C c t, context M.S M.O (loaded M (.fresh M.dirs) (.bufr h)) = .ok (C, c) ∧
      traceText M (.fresh M.dirs) raw = .ok t ∧
      ((∀ c, StandsFor C.dtable h.datadesc c → WR_VAR_F c ≠ 2 ∨ Adjusts c) →
        TraceText C (described M (.bufr h)) h ss t) := by
  simp only [decodedAlone, Option.some.injEq] at hr
  obtain ⟨y, h1, h2⟩ := Res.bind_eq_ok.mp hr
  simp only [Res.ok.injEq, Prod.mk.injEq, Head.bufr.injEq] at h2
  obtain ⟨h2, h3⟩ := h2
  unfold decodeBufr at h1
  simp only at h1
  have hl : ∀ h C c, context M.S M.O ((fresh M.dirs).load_bufr M.S .new (bufrId h)) = .ok (C, c) →
      IsRounding C.E.fl ∧ C.btable.Inv C.E ∧ C.O.Sane C.E ∧ c.Made C.E := by
    intro h C c e
    have m := load_bufr_made (fresh_inv M.S M.dirs) M.O e
    have f := m.fit hE hO
    exact ⟨f.rounding, f.table, f.opts, by rw [m.env]; exact m.caches⟩
  have hd0 : BufrDec.decode_header raw = .ok y.1 := by
    unfold decodeMessage BufrDec.decode at h1
    obtain ⟨hd, e, h1⟩ := Res.bind_eq_ok.mp h1
    obtain ⟨t, -, h1⟩ := Res.bind_eq_ok.mp h1
    obtain ⟨x, -, h1⟩ := Res.bind_eq_ok.mp h1
    obtain ⟨z, -, h1⟩ := Res.bind_eq_ok.mp h1
    cases h1
    exact e
  rw [← C89_message _ hl ⟨described M (.bufr h), tablePath (loaded M (.fresh M.dirs) (.bufr h)).2.1⟩] at h1
  obtain ⟨r, h4, h5⟩ := Res.bind_eq_ok.mp h1
  have h5' := Res.ok.inj h5
  have ht : traceText M (.fresh M.dirs) raw = .ok r.2.1.2 := by
    unfold traceText
    simp only [hd0, h2]
    rw [desc_described, h4]
    rfl
  unfold Verbose.decodeMessage BufrDec.decode at h4
  obtain ⟨hd, e1, h4⟩ := Res.bind_eq_ok.mp h4
  obtain ⟨⟨C, c⟩, e2, h4⟩ := Res.bind_eq_ok.mp h4
  obtain ⟨x, e3, h4⟩ := Res.bind_eq_ok.mp h4
  obtain ⟨z, -, h4⟩ := Res.bind_eq_ok.mp h4
  cases h4
  rw [hd0] at e1
  cases e1
  rw [h2] at e2
  refine ⟨C, c, _, e2, ht, fun hs => ?_⟩
  obtain ⟨f1, f2, f3, f4⟩ := hl _ _ _ e2
  have h6 : x.1.1 = ss := by rw [← h3, ← h5']
  unfold Verbose.decodeBody at e3
  rw [h2] at e3
  unfold TraceText
  split at e3
  · rename_i hc
    rw [if_pos hc]
    obtain ⟨w, e4, e5⟩ := Res.bind_eq_ok.mp e3
    cases e5
    have hk' : HookKeepsInfo C.O := by
      rw [(load_bufr_made (fresh_inv M.S M.dirs) M.O e2).opts]
      exact hk
    obtain ⟨cols, c1, c2, c3⟩ := C89_columns _ _ f2 hk' _ _ _ hs _ _ _ e4
    have hn : ss.length = BufrDec.obtained y.1.expected_subsets := by
      rw [← h6]
      show w.1.1.length = _
      rw [c1]
      simp [subsetsOf]
    refine ⟨cols, ?_, ?_, c3⟩
    · rw [hn, ← h6]; exact c1
    · rw [hn]; exact c2
  · rename_i hc
    rw [if_neg hc]
    obtain ⟨w, e4, e5⟩ := Res.bind_eq_ok.mp e3
    cases e5
    obtain ⟨ts, c1, c2⟩ := C89_lines _ _ f1 f2 f3 _ _ _ hs _ _ _ e4
    exact ⟨ts, c1, by rw [← h6]; exact c2⟩

end Wrep

/-- C109, in part: with any command line that asks for traces of BUFR messages, what `wrep`
writes is about each message in the order in which the files have them, each being read as if
it were the only one; about messages that can be decoded it is the report of C89, if operators
only change how elements are written, and about those whose header cannot be read nothing. Missing: CREX messages,
see `C109_not_crex`, and other operators, see `C109_not_values`. -/
theorem C109_bufr_partial (M : Wrep.Machine) (hE : IsRounding M.S.E.fl) (hO : M.O.Sane M.S.E)
    (hk : HookKeepsInfo M.O)
    {args files : List (List Byte)} {o : Wrep.Options}
    (hc : Command args .new o files) (ha : o.action = .trace) (hx : o.crex = false) (hf : files ≠ [])
    (out : List Byte) (status : Nat) (h : Wrep.main M args = .ended (out, status)) :
    status = 0 ∧
      ∃ mss, List.Forall₂ (fun f ms => FileHolds Stream.readBufr (M.inputs f) ms) files mss ∧
      ∃ texts, List.Forall₂ (fun (x : List Byte × Stream.Msg) t =>
        (∀ h ss, decodedAlone M false x.2.1 = some (.ok (.bufr h, ss)) →
          ∃ C c, context M.S M.O (Wrep.loaded M (.fresh M.dirs) (.bufr h)) = .ok (C, c) ∧
          ((∀ c, StandsFor C.dtable h.datadesc c → WR_VAR_F c ≠ 2 ∨ Adjusts c) →
            TraceText C (described M (.bufr h)) h ss t)) ∧
        (∀ e, BufrDec.decode_header x.2.1 = .err e → t = []))
        (named files mss) texts ∧ out = texts.flatten := by
  rw [Wrep.main_reads M hc (by rw [ha]; exact ⟨nofun, nofun, nofun⟩) hf, Wrep.Ran.andThen_ended] at h
  obtain ⟨a, h1, h2⟩ := h
  cases h2
  obtain ⟨mss, hm, texts, h3, rfl⟩ := (Wrep.readFiles_ended (o := o) (by rw [ha]; nofun)).mp h1
  rw [hx] at hm
  refine ⟨rfl, mss, hm, texts, h3.imp fun x t ht => ?_, rfl⟩
  simp only [Wrep.about, ha, hx, Bool.false_eq_true, if_false] at ht
  constructor
  · intro h ss hr
    obtain ⟨C, c, t', e1, e2, e3⟩ := Wrep.trace_told hE hO hk hr
    rw [e2] at ht
    cases ht
    exact ⟨C, c, e1, e3⟩
  · intro e he
    unfold Wrep.traceText at ht
    rw [he] at ht
    cases ht
    rfl

/-- C109 does not hold: a trace of a message with associated fields has none of its
values. -/
theorem C109_not_values :
    Wrep.main fieldMachine [ascii "-t", ascii "f"] = .ended (utf8 (
      "204002 2 bits of associated field\n012101 SOMETHING[K]\n204000 0 bits of associated field\n"), 0) ∧
    (decodedAlone fieldMachine false fieldMessage).map (fun r =>
      r >>= fun x => .ok (x.2.map (·.map (·.toVarCore.view)))) =
      some (.ok [[some (.num 9), some (.num 27315)]]) := by
  decide +kernel

/-- Traces are asked for. -/
example :
    Command [ascii "-t", ascii "a"] .new { Wrep.Options.new with action := .trace } [ascii "a"] ∧
    HookKeepsInfo printerMachine.O ∧
    Wrep.main printerMachine [ascii "-t", ascii "a"] = .ended (utf8 (
      "001001 SOMETHING[NUMERIC]\n       11\n201132 change data width to 4\n" ++
      "012101 SOMETHING[K]\n       273.15\n"), 0) := by
  refine ⟨?_, nofun, by decide +kernel⟩
  exact .letter (e := (116, ascii "trace", fun o => { o with action := .trace })) (by simp [documented])
      (by decide) (.file (by decide) .nil)

end Wreport
