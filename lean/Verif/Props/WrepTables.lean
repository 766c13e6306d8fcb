import Verif.Props.Scan
import Verif.Lemmas.WrepRun
import Verif.Props.WrepSamples
import Verif.Spec.WrepTables

/-!
# What `wrep` writes about tables, features and traces: theorems
-/

namespace Wreport

open Spec Process

namespace Wrep

theorem tablesRow_line (fname : List Byte) (offset : Nat) (h : Head) :
    TableLine fname offset h (tablesRow fname offset h) := by
  refine ⟨(offset :: tableNumbers h).map Crex.decDigits, ?_, ?_⟩
  · rw [List.forall₂_map_left_iff, List.forall₂_same]
    exact fun n _ => decDigits_decimal n
  · cases h <;> simp [tablesRow, tabLine, tableNumbers, cell]

theorem tablesTitle_line (fname : List Byte) (h : Head) :
    TitleLine fname h (tablesTitle fname h) := by
  cases h with
  | bufr h =>
    refine ⟨fname.length - 8, ?_, by simp only; omega⟩
    simp only [tablesTitle, tabLine, columnNames, List.append_assoc, List.append_cancel_left_eq]
    decide
  | crex h =>
    refine ⟨0, ?_, rfl⟩
    simp only [tablesTitle, tabLine, columnNames]
    decide

theorem cells_unique {a b : List (List Byte)} {l : List Nat}
    (ha : List.Forall₂ IsDecimalNat a l) (hb : List.Forall₂ IsDecimalNat b l) : a = b := by
  induction ha generalizing b with
  | nil => cases hb; rfl
  | cons h _ ih =>
    cases hb with
    | cons h' hb => rw [h.unique h', ih hb]

theorem TableLine_unique {fname : List Byte} {offset : Nat} {h : Head} {a b : List Byte}
    (ha : TableLine fname offset h a) (hb : TableLine fname offset h b) : a = b := by
  obtain ⟨x, h1, rfl⟩ := ha
  obtain ⟨y, h2, rfl⟩ := hb
  rw [cells_unique h1 h2]

theorem TitleLine_unique {fname : List Byte} {h : Head} {a b : List Byte}
    (ha : TitleLine fname h a) (hb : TitleLine fname h b) : a = b := by
  obtain ⟨x, rfl, h1⟩ := ha
  obtain ⟨y, rfl, h2⟩ := hb
  have : x = y := by
    cases h with
    | bufr => simp only at h1 h2; omega
    | crex => simp only at h1 h2; omega
  rw [this]

theorem sheet_ended {M : Machine} {o : Options} (ha : o.action = .tables)
    (ms : List (List Byte × Stream.Msg)) (b : Bool) (out : List Byte) :
    (∃ b', gatherS (fun b (x : List Byte × Stream.Msg) => aboutS M o x.1 b x.2) b ms =
      .ended (b', out)) ↔
    TableSheet (fun raw => (readHead M o.crex (.fresh M.dirs) raw).2) b ms out := by
  induction ms generalizing b out with
  | nil =>
    constructor
    · rintro ⟨b', h⟩
      cases h
      exact .nil
    · intro h
      cases h
      exact ⟨b, rfl⟩
  | cons x ms ih =>
    obtain ⟨f, m⟩ := x
    simp only [gatherS, aboutS, ha, if_true]
    have hu := fun b => ih b
    simp only [aboutS, ha, if_true] at hu
    constructor
    · rintro ⟨b', h⟩
      obtain ⟨x, h1, h2⟩ := Ran.andThen_ended.mp h
      obtain ⟨y, h3, h4⟩ := Ran.andThen_ended.mp h2
      cases h4
      rcases hr : (readHead M o.crex (.fresh M.dirs) m.1).2 with - | (⟨k, t⟩ | e | -)
      · rw [hr] at h1; cases h1
      · rw [hr] at h1
        cases h1
        have := (hu _ _).mp ⟨y.1, h3⟩
        cases b with
        | true =>
          simp only [if_true, List.nil_append]
          exact .next hr (tablesRow_line _ _ _) this
        | false =>
          simp only [Bool.false_eq_true, if_false]
          exact .first hr (tablesTitle_line _ _) (tablesRow_line _ _ _) this
      · rw [hr] at h1
        cases h1
        exact .refused hr ((hu _ _).mp ⟨y.1, h3⟩)
      · rw [hr] at h1; cases h1
    · intro h
      cases h with
      | refused hr h =>
        obtain ⟨b', h⟩ := (hu _ _).mpr h
        refine ⟨b', Ran.andThen_ended.mpr ⟨(b, []), ?_, Ran.andThen_ended.mpr ⟨_, h, rfl⟩⟩⟩
        rw [hr]
        rfl
      | first hr h1 h2 h =>
        obtain ⟨b', h⟩ := (hu _ _).mpr h
        refine ⟨b', Ran.andThen_ended.mpr ⟨(true, _), ?_, Ran.andThen_ended.mpr ⟨_, h, rfl⟩⟩⟩
        rw [hr, TitleLine_unique h1 (tablesTitle_line _ _), TableLine_unique h2 (tablesRow_line _ _ _)]
        rfl
      | next hr h2 h =>
        obtain ⟨b', h⟩ := (hu _ _).mpr h
        refine ⟨b', Ran.andThen_ended.mpr ⟨(true, _), ?_, Ran.andThen_ended.mpr ⟨_, h, rfl⟩⟩⟩
        rw [hr, TableLine_unique h2 (tablesRow_line _ _ _)]
        rfl

end Wrep

/-- C107: with any command line that asks for tables, `wrep` writes a line of titles and then a
line for each message that can be read, in the order in which the files have them, and nothing
else; each message is read as if it were the only one. It does end unless reading one of the
messages, alone, does not end or is not defined. What is missing from the property: of a CREX
message all has to be read, not the header only, see `C107_not_crex`. -/
theorem C107_lines_partial (M : Wrep.Machine) {args files : List (List Byte)} {o : Wrep.Options}
    (hc : Command args .new o files) (ha : o.action = .tables) (hf : files ≠ [])
    (out : List Byte) (status : Nat) :
    Wrep.main M args = .ended (out, status) ↔ status = 0 ∧
      ∃ mss, List.Forall₂ (fun f ms => FileHolds (Stream.readOf o.crex) (M.inputs f) ms) files mss ∧
        TableSheet (fun raw => (Wrep.readHead M o.crex (.fresh M.dirs) raw).2) false
          (named files mss) out := by
  rw [Wrep.main_reads M hc (by rw [ha]; exact ⟨nofun, nofun, nofun⟩) hf]
  rw [Wrep.Ran.andThen_ended]
  simp only [Wrep.Ran.ended.injEq, Prod.mk.injEq, Wrep.readFiles_gather, Wrep.sheet_ended ha]
  constructor
  · rintro ⟨a, h, rfl, rfl⟩
    exact ⟨rfl, h⟩
  · rintro ⟨rfl, h⟩
    exact ⟨_, h, rfl, rfl⟩

/-! ## The tables a line is about -/

namespace Tabledir

theorem bKind_number {name : List Byte} {id : BufrTableID} (h : bKind name = some (.bufr id)) :
    id.master_table_number = 0 := by
  unfold bKind at h
  split at h
  · split at h <;> cases h
  · split at h <;> cases h
    rfl
  · split at h <;> cases h
    rfl
  · cases h

theorem tables_number {dir : List Byte} {names : List (List Byte)} {t : Table} {id : BufrTableID}
    (h : t ∈ Dir.tables dir names) (hk : t.kind = .bufr id) : id.master_table_number = 0 := by
  unfold Dir.tables at h
  obtain ⟨name, -, h⟩ := List.mem_filterMap.mp h
  obtain ⟨k, h1, rfl⟩ := Option.map_eq_some_iff.mp h
  have hk' : k = .bufr id := hk
  subst hk'
  unfold fileKind at h1
  split at h1
  · cases h1
  split at h1
  · cases h1
  split at h1
  · exact bKind_number h1
  · cases h1
  · cases h1

end Tabledir

/-- The tables of a BUFR message have been found: its master table is number 0. -/
theorem context_number {S : System} {O : Opts} {dirs : List (List Byte)} {id : BufrTableID}
    {t : Ctx × TableCaches}
    (h : context S O ((fresh dirs).load_bufr S .new id) = .ok t) : id.master_table_number = 0 := by
  obtain ⟨h1, -⟩ := Tabledir.Tabledirs.find_bufr_good (fresh_inv S dirs).dirs id
  unfold load_bufr at h
  simp only [h1] at h
  cases hq : (Tabledir.BufrQuery id).run ((fresh dirs).dirs.dirs.map fun d => Tabledir.Dir.tables d (S.names d)) with
  | none =>
    rw [hq] at h
    cases h
  | some f =>
    obtain ⟨h2, h3, -⟩ := (bufrQuery_best id _).2 f hq
    obtain ⟨l, hl, hm⟩ := List.mem_flatten.mp h2
    obtain ⟨d, -, rfl⟩ := List.mem_map.mp hl
    unfold UsableB at h3
    split at h3
    · rename_i k hk
      rw [← h3.1]
      exact Tabledir.tables_number hm hk
    · cases h3

namespace Crex.Decoder

theorem descLoop_kept {fuel : Nat} {s s' : DescSt} (h : descLoop fuel s = some (.ok s')) :
    s'.2.master_table_version_number_bufr = s.2.master_table_version_number_bufr := by
  induction fuel generalizing s with
  | zero => cases h
  | succ n ih =>
    unfold descLoop descTurn at h
    cases hp : s.1.peek 0 with
    | err e => simp only [hp] at h; cases h
    | ub => simp only [hp] at h; cases h
    | ok c =>
      simp only [hp] at h
      split_ifs at h with h1 h2 h3 h4
      · cases h
      · cases hd : parseDescriptor (s.1.rem.take 6) with
        | ok code =>
          simp only [hd] at h
          exact (ih h).trans rfl
        | err e => simp only [hd] at h; cases h
        | ub => simp only [hd] at h; cases h
      · exact (ih (s := (_, _)) h).trans rfl
      · simp only [Option.some.injEq, Res.bind_eq_ok] at h
        obtain ⟨_, -, d, -, h⟩ := h
        split at h
        · cases h
        · cases h; rfl
      · exact ih h

theorem decodeStart_bufr {data : List Byte} {s : DescSt} (h : decodeStart data = .ok s) :
    s.2.master_table_version_number_bufr = 0 := by
  unfold decodeStart at h
  simp only [Res.bind_eq_ok] at h
  obtain ⟨_, -, h⟩ := h
  split at h
  · cases h
  obtain ⟨_, -, h⟩ := Res.bind_eq_ok.mp h
  obtain ⟨_, -, h⟩ := Res.bind_eq_ok.mp h
  split at h
  · cases h
  split at h
  · cases h
  obtain ⟨_, -, h⟩ := Res.bind_eq_ok.mp h
  obtain ⟨_, -, h⟩ := Res.bind_eq_ok.mp h
  split at h
  · cases h
  obtain ⟨_, -, h⟩ := Res.bind_eq_ok.mp h
  obtain ⟨_, -, h⟩ := Res.bind_eq_ok.mp h
  cases h
  rfl

theorem decode_bufr {load : Header → Res (Ctx × TableCaches)} {depth fuel : Nat} {data : List Byte}
    {h : Header} {ss : List (List Var)} (hd : decode load depth fuel data = some (.ok (h, ss))) :
    h.master_table_version_number_bufr = 0 := by
  unfold decode at hd
  rcases hh : decode_header fuel data with - | (⟨i, k⟩ | e | -)
  · rw [hh] at hd; cases hd
  · rw [hh] at hd
    have hk : k.master_table_version_number_bufr = 0 := by
      unfold decode_header at hh
      cases hs : decodeStart data with
      | ok s =>
        rw [hs] at hh
        have := descLoop_kept hh
        rw [decodeStart_bufr hs] at this
        exact this
      | err e => rw [hs] at hh; cases hh
      | ub => rw [hs] at hh; cases hh
    simp only at hd
    cases hl : load k with
    | ok t =>
      rw [hl] at hd
      obtain ⟨r, -, hr⟩ := Option.map_eq_some_iff.mp hd
      obtain ⟨s, -, hs⟩ := Res.bind_eq_ok.mp hr
      cases hs
      exact hk
    | err e => rw [hl] at hd; cases hd
    | ub => rw [hl] at hd; cases hd
  · rw [hh] at hd; cases hd
  · rw [hh] at hd; cases hd

end Crex.Decoder

/-- C107: two messages with the same numbers on their lines use the same tables. -/
theorem C107_same (M : Wrep.Machine) (crex : Bool) (a b : List Byte) {h h' : Wrep.Head}
    {t t' : Ctx × TableCaches}
    (ha : (Wrep.readHead M crex (.fresh M.dirs) a).2 = some (.ok (h, t)))
    (hb : (Wrep.readHead M crex (.fresh M.dirs) b).2 = some (.ok (h', t')))
    (hn : tableNumbers h = tableNumbers h') : t = t' := by
  have key : ∀ {raw : List Byte} {k : Wrep.Head} {x : Ctx × TableCaches},
      (Wrep.readHead M crex (.fresh M.dirs) raw).2 = some (.ok (k, x)) →
      (∃ y, crex = true ∧ k = .crex y ∧ y.master_table_version_number_bufr = 0 ∧
        context M.S M.O ((fresh M.dirs).load_crex M.S .new (crexId y)) = .ok x) ∨
      (∃ y, crex = false ∧ k = .bufr y ∧ y.master_table_number = 0 ∧
        context M.S M.O ((fresh M.dirs).load_bufr M.S .new (bufrId y)) = .ok x) := by
    intro raw k x h
    unfold Wrep.readHead at h
    cases crex with
    | true =>
      simp only [if_true] at h
      obtain ⟨r, h1, h2⟩ := Option.map_eq_some_iff.mp h
      simp only [Res.bind_eq_ok] at h2
      obtain ⟨y, rfl, t, h3, h4⟩ := h2
      cases h4
      exact .inl ⟨y.1, rfl, rfl, Crex.Decoder.decode_bufr h1, h3⟩
    | false =>
      simp only [Bool.false_eq_true, if_false] at h
      cases hd : BufrDec.decode_header raw with
      | ok y =>
        rw [hd] at h
        simp only [Option.some.injEq, Res.bind_eq_ok] at h
        obtain ⟨t, h3, h4⟩ := h
        cases h4
        exact .inr ⟨y.header, rfl, rfl, context_number h3, h3⟩
      | err e => rw [hd] at h; cases h
      | ub => rw [hd] at h; cases h
  rcases key ha with ⟨y, hc, rfl, h1, h2⟩ | ⟨y, hc, rfl, h1, h2⟩
  · rcases key hb with ⟨z, -, rfl, h3, h4⟩ | ⟨z, hc', -⟩
    · have e : crexId y = crexId z := by
        simp only [tableNumbers, List.cons.injEq, UInt8.toNat_inj, and_true] at hn
        unfold crexId
        rw [hn.1, hn.2.1, hn.2.2, h1, h3]
      rw [e, h4] at h2
      cases h2
      rfl
    · rw [hc] at hc'; cases hc'
  · rcases key hb with ⟨z, hc', -⟩ | ⟨z, -, rfl, h3, h4⟩
    · rw [hc] at hc'; cases hc'
    · have e : bufrId y = bufrId z := by
        simp only [tableNumbers, List.cons.injEq, UInt8.toNat_inj, UInt16.toNat_inj, and_true] at hn
        unfold bufrId
        rw [hn.1, hn.2.1, hn.2.2.1, hn.2.2.2, h1, h3]
      rw [e, h4] at h2
      cases h2
      rfl

/-- C107 does not hold: the header of a CREX message can be read and its tables are there, and
nothing is written about it. -/
theorem C107_not_crex :
    (Crex.Decoder.decode_header crexMachine.fuel (crexText "03" "27")).map (fun r => r >>= fun x =>
      context crexMachine.S crexMachine.O
        ((fresh crexMachine.dirs).load_crex crexMachine.S .new (crexId x.2)) >>= fun _ =>
      .ok (tableNumbers (.crex x.2))) = some (.ok [0, 1, 3]) ∧
    crexMachine.inputs (ascii "d") = some (crexText "03" "27") ∧
    Wrep.main crexMachine [ascii "-c", ascii "-T", ascii "d"] = .ended ([], 0) := by
  decide +kernel

/-- Tables are asked for: between two messages that cannot be read are two that can. -/
example :
    Command [ascii "-T", ascii "a", ascii "b"] .new
      { Wrep.Options.new with action := .tables } [ascii "a", ascii "b"] ∧
    Wrep.main printerMachine [ascii "-T", ascii "a", ascii "b"] =
      .ended (utf8 "Filename\tOffset\tCentre\tSubc.\tMaster\tLocal\na\t64\t0\t0\t19\t0\nb\t0\t0\t0\t19\t0\n", 0) := by
  constructor
  · exact .letter (e := (84, ascii "tables", fun o => { o with action := .tables }))
      (by simp [documented]) (by decide) (.file (by decide) (.file (by decide) .nil))
  · decide +kernel

/-- The same for CREX. -/
example :
    Command [ascii "-c", ascii "--tables", ascii "c"] .new
      { Wrep.Options.new with crex := true, action := .tables } [ascii "c"] ∧
    Wrep.main crexMachine [ascii "-c", ascii "--tables", ascii "c"] =
      .ended (utf8 "Filename\tOffset\tMaster\tEdition\tTable\nc\t0\t0\t1\t3\nc\t127\t0\t1\t3\n", 0) := by
  constructor
  · exact .letter (e := (99, ascii "crex", fun o => { o with crex := true })) (by simp [documented])
      (by decide) (.name (e := (84, ascii "tables", fun o => { o with action := .tables }))
      (by simp [documented]) (.file (by decide) .nil))
  · decide +kernel

/-- Two messages that are read, with the same numbers. -/
example :
    let numbers (raw : List Byte) :=
      (Wrep.readHead crexMachine true (.fresh crexMachine.dirs) raw).2.map fun r =>
        r >>= fun x => .ok (tableNumbers x.1)
    numbers (crexText "03" "2731") = some (.ok [0, 1, 3]) ∧
    numbers (crexText "03" "2741") = some (.ok [0, 1, 3]) := by
  decide +kernel

/-! ## C108 -/

namespace Wrep

theorem featureList_commas (fs : List (List Byte)) : featureList true fs = commas fs := by
  have key : ∀ f fs, f ++ featureList false fs = commas (f :: fs) := by
    intro f fs
    induction fs generalizing f with
    | nil => simp [featureList, commas]
    | cons g fs ih =>
      simp only [featureList, commas, ← ih]
      simp
  cases fs with
  | nil => rfl
  | cons f fs => exact key f fs

theorem features_ended {M : Machine} {fname : List Byte} {offset : Nat}
    {r : Option (Res (Head × Ctx × TableCaches))} {t : List Byte} :
    printFeatures M fname offset r = .ended t ↔ FeatureLine M.depth r fname offset t := by
  unfold FeatureLine
  rcases r with - | (⟨h, C, c⟩ | e | -)
  · simp [printFeatures]
  · simp only [printFeatures, featureList_commas]
    cases hf : Scan.features C M.depth h.datadesc c with
    | ok fs =>
      constructor
      · intro h
        cases h
        exact .inr ⟨_, _, _, rfl, .inr ⟨fs, _, hf, decDigits_decimal _, rfl⟩⟩
      · rintro (⟨e, h, -⟩ | ⟨_, _, _, h, h2⟩)
        · cases h
        · cases h
          rcases h2 with ⟨e, h, -⟩ | ⟨fs', k, h, hk, rfl⟩
          · rw [hf] at h; cases h
          · rw [hf] at h
            cases h
            rw [hk.unique (decDigits_decimal _)]
    | err e =>
      constructor
      · intro h
        cases h
        exact .inr ⟨_, _, _, rfl, .inl ⟨e, hf, rfl⟩⟩
      · rintro (⟨e, h, -⟩ | ⟨_, _, _, h, h2⟩)
        · cases h
        · cases h
          rcases h2 with ⟨e, h, rfl⟩ | ⟨fs', k, h, -⟩
          · rfl
          · rw [hf] at h; cases h
    | ub =>
      constructor
      · intro h
        cases h
      · rintro (⟨e, h, -⟩ | ⟨_, _, _, h, h2⟩)
        · cases h
        · cases h
          rcases h2 with ⟨e, h, -⟩ | ⟨fs', k, h, -⟩ <;> (rw [hf] at h; cases h)
  · simp [printFeatures, eq_comm]
  · simp [printFeatures]

end Wrep

/-- C108: with any command line that asks for features, `wrep` writes a line for each
message that can be read and whose descriptors can be scanned, in the order in which the files
have them, and nothing else; each message is read as if it were the only one. It does end unless
reading one of the messages, alone, does not end or is not defined. What is missing from the
property: of a CREX message all has to be read, see `C108_not_crex`, and a sequence that is
repeated no times is scanned or not as others tell, see `C79_not_scanned`. -/
theorem C108_lines_partial (M : Wrep.Machine) {args files : List (List Byte)} {o : Wrep.Options}
    (hc : Command args .new o files) (ha : o.action = .features) (hf : files ≠ [])
    (out : List Byte) (status : Nat) :
    Wrep.main M args = .ended (out, status) ↔ status = 0 ∧
      ∃ mss, List.Forall₂ (fun f ms => FileHolds (Stream.readOf o.crex) (M.inputs f) ms) files mss ∧
      ∃ texts, List.Forall₂ (fun (x : List Byte × Stream.Msg) t =>
        FeatureLine M.depth (Wrep.readHead M o.crex (.fresh M.dirs) x.2.1).2 x.1 x.2.2 t)
        (named files mss) texts ∧ out = texts.flatten := by
  rw [Wrep.main_reads M hc (by rw [ha]; exact ⟨nofun, nofun, nofun⟩) hf]
  rw [Wrep.Ran.andThen_ended]
  simp only [Wrep.Ran.ended.injEq, Prod.mk.injEq,
    Wrep.readFiles_ended (o := o) (by rw [ha]; nofun), Wrep.about, ha, Wrep.features_ended]
  constructor
  · rintro ⟨a, h, rfl, rfl⟩
    exact ⟨rfl, h⟩
  · rintro ⟨rfl, h⟩
    exact ⟨_, h, rfl, rfl⟩

/-- C108: the features on a line are in order and each of them is there once; each names
an operator or a replication of the message, and each operator of the message is named. -/
theorem C108_features_partial (M : Wrep.Machine) {depth : Nat} {crex : Bool} {raw : List Byte}
    {h : Wrep.Head} {C : Ctx} {c : TableCaches} {fs : List (List Byte)}
    (_hr : (Wrep.readHead M crex (.fresh M.dirs) raw).2 = some (.ok (h, C, c)))
    (hs : Scan.features C depth h.datadesc c = .ok fs) :
    fs.Nodup ∧ fs.Pairwise (fun a b => Scan.before a b = true) ∧
    (∀ f ∈ fs, ∃ x, Occurs C.dtable.query h.datadesc x ∧ Names x f) ∧
    ∀ x rest, Spec.Reads C.dtable.query h.datadesc x rest → WR_VAR_F x = 2 → ∃ f ∈ fs, Names x f := by
  obtain ⟨h1, h2⟩ := C79_once_partial C depth _ c fs hs
  refine ⟨h1, h2, C79_found_partial C depth _ c fs hs, fun x rest hx h2 => ?_⟩
  obtain ⟨h3, h4⟩ := C79_operators_partial C depth _ c fs hs x rest hx h2
  by_cases hl : LocalOp x
  · obtain ⟨n, -, hn⟩ := h4 hl
    exact ⟨_, hn, .inr (.inl ⟨hl, n, rfl⟩)⟩
  · exact ⟨_, h3 hl, .inl ⟨h2, fun hx => hl ⟨h2, hx⟩, rfl⟩⟩

/-- C108 does not hold: the header of a CREX message can be read, its tables are there and its
descriptors can be scanned, and nothing is written about it. -/
theorem C108_not_crex :
    (Crex.Decoder.decode_header crexMachine.fuel (crexText "03" "27")).map (fun r => r >>= fun x =>
      context crexMachine.S crexMachine.O
        ((fresh crexMachine.dirs).load_crex crexMachine.S .new (crexId x.2)) >>= fun t =>
      Scan.features t.1 crexMachine.depth x.2.datadesc t.2) = some (.ok []) ∧
    crexMachine.inputs (ascii "d") = some (crexText "03" "27") ∧
    Wrep.main crexMachine [ascii "-c", ascii "-F", ascii "d"] = .ended ([], 0) := by
  decide +kernel

/-- Features are asked for. -/
example :
    Command [ascii "a", ascii "--features", ascii "b"] .new
      { Wrep.Options.new with action := .features } [ascii "a", ascii "b"] ∧
    Wrep.main printerMachine [ascii "a", ascii "--features", ascii "b"] =
      .ended (ascii "a:64:C01132\nb:0:C01132\n", 0) ∧
    Wrep.main crexMachine [ascii "-c", ascii "-F", ascii "c"] = .ended (ascii "c:0:\nc:127:\n", 0) := by
  refine ⟨?_, by decide +kernel⟩
  exact .file (by decide) (.name (e := (70, ascii "features", fun o => { o with action := .features }))
      (by simp [documented]) (.file (by decide) .nil))

/-- A message that is read and its features. -/
example :
    (Wrep.readHead printerMachine false (.fresh printerMachine.dirs) narrowMessage).2.map (fun r =>
      r >>= fun x => Scan.features x.2.1 1 x.1.datadesc x.2.2) = some (.ok [ascii "C01132"]) := by
  decide +kernel

/-! ## C109 -/

/-- C109 does not hold: with any command line that asks for traces of CREX messages, whatever
is in the files, nothing is written. -/
theorem C109_not_crex (M : Wrep.Machine) {args files : List (List Byte)} {o : Wrep.Options}
    (hc : Command args .new o files) (ha : o.action = .trace) (hx : o.crex = true) (hf : files ≠ [])
    (out : List Byte) (status : Nat) (h : Wrep.main M args = .ended (out, status)) :
    out = [] ∧ status = 0 := by
  rw [Wrep.main_reads M hc (by rw [ha]; exact ⟨nofun, nofun, nofun⟩) hf, Wrep.Ran.andThen_ended] at h
  obtain ⟨a, h1, h2⟩ := h
  cases h2
  refine ⟨?_, rfl⟩
  obtain ⟨mss, -, outs, h3, rfl⟩ := (Wrep.readFiles_ended (o := o) (by rw [ha]; nofun)).mp h1
  simp only [Wrep.about, ha, hx, if_true] at h3
  clear h1
  generalize named files mss = xs at h3
  induction h3 with
  | nil => rfl
  | @cons x t _ _ h _ ih =>
    rw [List.flatten_cons, ih]
    rcases hd : (Wrep.decode M true (.fresh M.dirs) x.2.1).2 with - | (y | e | -) <;>
      rw [hd] at h <;> cases h <;> rfl

/-- Two CREX messages can be decoded and no trace of them is written. -/
example :
    Command [ascii "-t", ascii "-c", ascii "c"] .new
      { Wrep.Options.new with crex := true, action := .trace } [ascii "c"] ∧
    Wrep.main crexMachine [ascii "-t", ascii "-c", ascii "c"] = .ended ([], 0) ∧
    Wrep.main crexMachine [ascii "-c", ascii "--print=B12101", ascii "c"] =
      .ended (ascii "c:1:\t27.31\nc:1:\t27.41\n", 0) := by
  refine ⟨?_, by decide +kernel⟩
  exact .letter (e := (116, ascii "trace", fun o => { o with action := .trace })) (by simp [documented])
      (by decide) (.letter (e := (99, ascii "crex", fun o => { o with crex := true }))
      (by simp [documented]) (by decide) (.file (by decide) .nil))

end Wreport
