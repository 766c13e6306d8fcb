import Verif.Lemmas.Process
import Verif.Props.Tables
import Verif.Props.Data

/-!
# Loading of tables in a process: theorems

Tables that a process has read are shared by all the messages it decodes, and the
requests of one message leave traces in them.
-/

namespace Wreport

open Tabledir Spec Process

/-! ## C93 -/

/-- C93 for BUFR: while files and directories stay as they are, what a message is decoded
to depends on the directories that have been added, and on nothing else that the
process has done: not on which messages it has decoded before, on which tables these
have loaded, on those that could not be loaded, or on the alterations asked for. -/
theorem C93_bufr (S : System) (ops ops' : List ProcessOp) (hq : ∀ op ∈ ops, op.InRange)
    (hq' : ∀ op ∈ ops', op.InRange)
    (hd : ops.filterMap ProcessOp.adds = ops'.filterMap ProcessOp.adds)
    (O : Opts) (add_undef : Bool) (depth : Nat) (data : List Byte) :
    ((Process.after S ops).decodeBufr S O add_undef depth data).2 =
      ((Process.after S ops').decodeBufr S O add_undef depth data).2 := by
  have h : (Process.after S ops).Inv S := foldl_inv S ops hq _ (fresh_inv S [])
  have h' : (Process.after S ops').Inv S := foldl_inv S ops' hq' _ (fresh_inv S [])
  have e : (Process.after S ops).dirs.dirs = (Process.after S ops').dirs.dirs := by
    unfold Process.after
    rw [foldl_dirs, foldl_dirs, hd]
  rw [(decodeBufr_near h O add_undef depth data).2, (decodeBufr_near h' O add_undef depth data).2, e]

/-- C93 for CREX. -/
theorem C93_crex (S : System) (ops ops' : List ProcessOp) (hq : ∀ op ∈ ops, op.InRange)
    (hq' : ∀ op ∈ ops', op.InRange)
    (hd : ops.filterMap ProcessOp.adds = ops'.filterMap ProcessOp.adds)
    (O : Opts) (depth fuel : Nat) (data : List Byte) :
    ((Process.after S ops).decodeCrex S O depth fuel data).2 =
      ((Process.after S ops').decodeCrex S O depth fuel data).2 := by
  have h : (Process.after S ops).Inv S := foldl_inv S ops hq _ (fresh_inv S [])
  have h' : (Process.after S ops').Inv S := foldl_inv S ops' hq' _ (fresh_inv S [])
  have e : (Process.after S ops).dirs.dirs = (Process.after S ops').dirs.dirs := by
    unfold Process.after
    rw [foldl_dirs, foldl_dirs, hd]
  rw [(decodeCrex_near h O depth fuel data).2, (decodeCrex_near h' O depth fuel data).2, e]

/-- C93, tables are kept: once an element table or a sequence table has been read from a
file, it stays, and gives the same answers for ever, even if the file changes or goes
away. -/
theorem C93_kept (E : Env) (dirs : List (List Byte)) (xs ys : History)
    (hx : ∀ x ∈ xs, x.2.2.InRange) (hy : ∀ x ∈ ys, x.2.2.InRange) (k : List Byte) :
    let p := (fresh dirs).during E xs
    let p' := p.during E ys
    (∀ t, p.bufr_b.lookup k = some t → ∃ t', p'.bufr_b.lookup k = some t' ∧ SameAnswers E t t') ∧
    (∀ t, p.crex_b.lookup k = some t → ∃ t', p'.crex_b.lookup k = some t' ∧ SameAnswers E t t') ∧
    (∀ t, p.bufr_d.lookup k = some t → p'.bufr_d.lookup k = some t) ∧
    (∀ t, p.crex_d.lookup k = some t → p'.crex_d.lookup k = some t) := by
  intro p p'
  have hf : FromFiles E (fun _ _ => True) p :=
    during_from E _ xs hx (fun _ _ _ _ _ => trivial) _
      ⟨nofun, nofun, nofun, nofun⟩
  have hs := during_stays E ys hy p
  refine ⟨fun t h => ?_, fun t h => ?_, hs.bufr_d k, hs.crex_d k⟩
  · obtain ⟨-, t0, -, -, h1⟩ := hf.bufr_b k t h
    obtain ⟨t', h2, h3⟩ := hs.bufr_b k t h h1.2.2
    exact ⟨t', h2, Grown.same h3⟩
  · obtain ⟨-, t0, -, -, h1⟩ := hf.crex_b k t h
    obtain ⟨t', h2, h3⟩ := hs.crex_b k t h h1.2.2
    exact ⟨t', h2, Grown.same h3⟩

/-- C93, tables are read from their files: what is kept under a name answers as the
contents that the file of that name had at some moment of the past, when all of it
could be read; nothing is kept of a file that could not be read. -/
theorem C93_read (E : Env) (dirs : List (List Byte)) (xs : History)
    (hx : ∀ x ∈ xs, x.2.2.InRange) (k : List Byte) :
    let p := (fresh dirs).during E xs
    let was := fun data => ∃ x ∈ xs, x.2.1 k = some data
    (∀ t, p.bufr_b.lookup k = some t →
      ∃ data t0, was data ∧ Vartable.load_bufr E data = .ok t0 ∧ SameAnswers E t0 t) ∧
    (∀ t, p.crex_b.lookup k = some t →
      ∃ data t0, was data ∧ Vartable.load_crex E data = .ok t0 ∧ SameAnswers E t0 t) ∧
    (∀ t, p.bufr_d.lookup k = some t → ∃ data, was data ∧ DTable.load data = .ok t) ∧
    (∀ t, p.crex_d.lookup k = some t → ∃ data, was data ∧ DTable.load data = .ok t) := by
  intro p was
  have hf : FromFiles E (fun k data => ∃ x ∈ xs, x.2.1 k = some data) p :=
    during_from E _ xs hx (fun x h k data e => ⟨x, h, e⟩) _ ⟨nofun, nofun, nofun, nofun⟩
  refine ⟨fun t h => ?_, fun t h => ?_, fun t h => ?_, fun t h => ?_⟩
  · obtain ⟨data, t0, h1, h2, h3⟩ := hf.bufr_b k t h
    exact ⟨data, t0, h1, h2, Grown.same h3⟩
  · obtain ⟨data, t0, h1, h2, h3⟩ := hf.crex_b k t h
    exact ⟨data, t0, h1, h2, Grown.same h3⟩
  · obtain ⟨data, t0, h1, h2, rfl⟩ := hf.bufr_d k t h
    exact ⟨data, h1, h2⟩
  · obtain ⟨data, t0, h1, h2, rfl⟩ := hf.crex_d k t h
    exact ⟨data, h1, h2⟩

/-- Two versions of a table in a directory; the second has no sequence table. -/
def twoVersions : System where
  E := Env0
  names := fun d => if d = ascii "/t" then
    [ascii "B000000000001900.txt", ascii "D000000000001900.txt", ascii "B000000000002000.txt"] else []
  files := fun k =>
    if k = ascii "/t/B000000000001900.txt" then some sampleTableText
    else if k = ascii "/t/D000000000001900.txt" then some sampleDText
    else if k = ascii "/t/B000000000002000.txt" then some sampleTableText
    else none

/-- The files of `twoVersions` after they have been emptied. -/
def noFiles : System := { twoVersions with files := fun _ => none }

/-- A message that has been encoded. -/
def bytesOf : Res (List Byte) → List Byte
  | .ok m => m
  | _ => []

/-- A message for the first version, with a width changed by an operator. -/
def narrowMessage : List Byte :=
  bytesOf (encodeMessage { sampleCtx with btable := sampleTable } 1
    { sampleHeader with
      originating_centre := 0, originating_subcentre := 0,
      datadesc := [WR_VAR 0 1 1, WR_VAR 2 1 132, WR_VAR 0 12 101] }
    [[(Var.new (made (Varinfo.raw (WR_VAR 0 1 1) .integer (ascii "NUMERIC") 0 3 0 7))).putInt 11,
      (Var.new (made { sampleTemp with bit_len := 20 })).putInt 27315]] noCaches)

/-- The same message for the second version. -/
def otherMessage : List Byte := narrowMessage.set 21 20

/-- What a process decodes a message to. -/
def decodedBy (S : System) (p : Process) (m : List Byte) : Res (List (Option Value)) :=
  (p.decodeBufr S sampleCtx.O false 1 m).2 >>= fun x =>
    .ok ((x.2.1.headD []).map (·.toVarCore.view))

/-- The first message before the directory is added (its table is not found), the second
one (its sequence table is not found), the first again, and the alterations it
leaves. -/
def someOps : List ProcessOp :=
  [.bufr sampleCtx.O false 1 narrowMessage, .add (ascii "/t"),
    .bufr sampleCtx.O false 1 otherMessage, .bufr sampleCtx.O false 1 narrowMessage,
    .alterBufr (ascii "/t/B000000000001900.txt") ⟨WR_VAR 0 12 101, 2, 20, 0⟩,
    .alterBufr (ascii "/t/B000000000001900.txt") ⟨WR_VAR 0 12 101, 3, 18, -5⟩]

/-- The hypotheses of C93 are met. -/
example : (∀ op ∈ someOps, op.InRange) ∧
    someOps.filterMap ProcessOp.adds = [ProcessOp.add (ascii "/t")].filterMap ProcessOp.adds := by
  refine ⟨?_, rfl⟩
  intro op h
  simp only [someOps, List.mem_cons, List.not_mem_nil, or_false] at h
  rcases h with rfl | rfl | rfl | rfl | rfl | rfl
  · trivial
  · trivial
  · trivial
  · trivial
  · show inInt 0 = true
    decide
  · show inInt (-5) = true
    decide

/-- The tables have been read and one has changed, what is decoded has not. -/
example :
    ((Process.after twoVersions someOps).bufr_b.map fun e => (e.1, decide (e.2 = sampleTable))) =
      [(ascii "/t/B000000000001900.txt", false), (ascii "/t/B000000000002000.txt", true)] ∧
    decodedBy twoVersions (.after twoVersions someOps) narrowMessage =
      .ok [some (.num 11), some (.num 27315)] ∧
    decodedBy twoVersions (.after twoVersions [.add (ascii "/t")]) narrowMessage =
      .ok [some (.num 11), some (.num 27315)] ∧
    decodedBy twoVersions (.after twoVersions []) narrowMessage = .err .notfound ∧
    decodedBy twoVersions (.after twoVersions someOps) otherMessage = .err .system := by
  decide +kernel

/-- Without the files the tables that have been read are still there, others are
missing. -/
example : decodedBy noFiles (.after twoVersions someOps) narrowMessage =
      .ok [some (.num 11), some (.num 27315)] ∧
    decodedBy noFiles (.after twoVersions [.add (ascii "/t")]) narrowMessage = .err .system := by
  decide +kernel

/-! ## C94 -/

theorem find_bufr_best {names : List Byte → List (List Byte)} {t : Tabledirs} (h : t.Good names)
    (id : BufrTableID) (f : Table) (hf : (t.find_bufr names id).1 = some f) :
    IsBest (UsableB id) (CloserB id) (t.tables names) f := by
  have := bufrQuery_best id (t.dirs.map fun d => Dir.tables d (names d))
  rw [← (Tabledirs.find_bufr_good h id).1, ← List.flatMap_def] at this
  exact this.2 f hf

theorem find_crex_best {names : List Byte → List (List Byte)} {t : Tabledirs} (h : t.Good names)
    (id : CrexTableID) (f : Table) (hf : (t.find_crex names id).1 = some f) :
    IsBest (UsableC id) (CloserC id) (t.tables names) f := by
  have := crexQuery_best id (t.dirs.map fun d => Dir.tables d (names d))
  rw [← (Tabledirs.find_crex_good h id).1, ← List.flatMap_def] at this
  refine (this.2 f hf).2.2 ?_
  intro t' ht
  rw [List.mem_flatMap] at ht
  obtain ⟨d, -, hd⟩ := ht
  exact dir_plain d (names d) t' hd

/-- C94 for BUFR, what loading gives: the tables of the best candidate for the
identifier, an element table and a sequence table of the same candidate, as their
files say; the rest of the tables of the bulletin is kept. -/
theorem C94_bufr_partial (S : System) (ops : List ProcessOp) (hq : ∀ op ∈ ops, op.InRange)
    (t : Tables) (id : BufrTableID)
    (h : ((Process.after S ops).load_bufr S t id).2.2 = .ok ()) :
    let t' := ((Process.after S ops).load_bufr S t id).2.1
    t'.loaded = true ∧ t'.caches = t.caches ∧
    ∃ f b d, IsBest (UsableB id) (CloserB id) ((Process.after S ops).dirs.tables S.names) f ∧
      t'.btable = some (f.btable_pathname, b) ∧ t'.dtable = some (f.dtable_pathname, d) ∧
      (∃ data b0, S.files f.btable_pathname = some data ∧ Vartable.load_bufr S.E data = .ok b0 ∧
        SameAnswers S.E b0 b) ∧
      (∃ data, S.files f.dtable_pathname = some data ∧ DTable.load data = .ok d) := by
  have hi : (Process.after S ops).Inv S := foldl_inv S ops hq _ (fresh_inv S [])
  generalize Process.after S ops = p at h hi
  have hbest := find_bufr_best hi.dirs id
  unfold Process.load_bufr at h ⊢
  simp only at h ⊢
  cases hr : (p.dirs.find_bufr S.names id).1 with
  | none => rw [hr] at h; cases h
  | some f =>
    rw [hr] at h
    simp only at h ⊢
    rcases setBufr_cases S { p with dirs := (p.dirs.find_bufr S.names id).2 } t f with
      ⟨-, b, d, h1, h2, h3⟩ | ⟨hn, -⟩
    · rw [h1]
      obtain ⟨data, b0, e1, e2, e3⟩ := loadOnce_ok Grown.bufr hi.bufr_b h2
      obtain ⟨data', d0, e4, e5, rfl⟩ := loadOnce_ok (Q := Eq) (fun _ _ _ => rfl) hi.bufr_d h3
      exact ⟨rfl, rfl, f, b, d0, hbest f hr, rfl, rfl, ⟨data, b0, e1, e2, Grown.same e3⟩,
        ⟨data', e4, e5⟩⟩
    · exact absurd h hn

/-- C94 for BUFR, what is left when loading fails: everything as it was, except when
the element table of the best candidate can be read and its sequence table cannot. -/
theorem C94_bufr_failed_partial (S : System) (ops : List ProcessOp) (hq : ∀ op ∈ ops, op.InRange)
    (t : Tables) (id : BufrTableID)
    (h : ((Process.after S ops).load_bufr S t id).2.2 ≠ .ok ())
    (hs : ∀ f, IsBest (UsableB id) (CloserB id) ((Process.after S ops).dirs.tables S.names) f →
      (∃ data b, S.files f.btable_pathname = some data ∧ Vartable.load_bufr S.E data = .ok b) →
      ∃ data d, S.files f.dtable_pathname = some data ∧ DTable.load data = .ok d) :
    ((Process.after S ops).load_bufr S t id).2.1 = t := by
  have hi : (Process.after S ops).Inv S := foldl_inv S ops hq _ (fresh_inv S [])
  generalize Process.after S ops = p at h hi hs
  have hbest := find_bufr_best hi.dirs id
  unfold Process.load_bufr at h ⊢
  simp only at h ⊢
  cases hr : (p.dirs.find_bufr S.names id).1 with
  | none => rfl
  | some f =>
    rw [hr] at h
    simp only at h ⊢
    rcases setBufr_cases S { p with dirs := (p.dirs.find_bufr S.names id).2 } t f with
      ⟨ho, -⟩ | ⟨-, h1 | ⟨b, -, h2, h3⟩⟩
    · exact absurd ho h
    · exact h1
    · obtain ⟨data, b0, e1, e2, -⟩ := loadOnce_ok Grown.bufr hi.bufr_b h2
      obtain ⟨data', d, e3, e4⟩ := hs f (hbest f hr) ⟨data, b0, e1, e2⟩
      exact absurd e4 (loadOnce_fails h3 data' e3 d)

/-- C94 for CREX, what loading gives: the tables of the best candidate for the
identifier, an element table and a sequence table of the same candidate, as their
files say; the rest of the tables of the bulletin is kept. -/
theorem C94_crex_partial (S : System) (ops : List ProcessOp) (hq : ∀ op ∈ ops, op.InRange)
    (t : Tables) (id : CrexTableID)
    (h : ((Process.after S ops).load_crex S t id).2.2 = .ok ()) :
    let t' := ((Process.after S ops).load_crex S t id).2.1
    t'.loaded = true ∧ t'.caches = t.caches ∧
    ∃ f b d, IsBest (UsableC id) (CloserC id) ((Process.after S ops).dirs.tables S.names) f ∧
      t'.btable = some (f.btable_pathname, b) ∧ t'.dtable = some (f.dtable_pathname, d) ∧
      (∃ data b0, S.files f.btable_pathname = some data ∧ Vartable.load_crex S.E data = .ok b0 ∧
        SameAnswers S.E b0 b) ∧
      (∃ data, S.files f.dtable_pathname = some data ∧ DTable.load data = .ok d) := by
  have hi : (Process.after S ops).Inv S := foldl_inv S ops hq _ (fresh_inv S [])
  generalize Process.after S ops = p at h hi
  have hbest := find_crex_best hi.dirs id
  unfold Process.load_crex at h ⊢
  simp only at h ⊢
  cases hr : (p.dirs.find_crex S.names id).1 with
  | none => rw [hr] at h; cases h
  | some f =>
    rw [hr] at h
    simp only at h ⊢
    rcases setCrex_cases S { p with dirs := (p.dirs.find_crex S.names id).2 } t f with
      ⟨-, b, d, h1, h2, h3⟩ | ⟨hn, -⟩
    · rw [h1]
      obtain ⟨data, b0, e1, e2, e3⟩ := loadOnce_ok Grown.crex hi.crex_b h2
      obtain ⟨data', d0, e4, e5, rfl⟩ := loadOnce_ok (Q := Eq) (fun _ _ _ => rfl) hi.crex_d h3
      exact ⟨rfl, rfl, f, b, d0, hbest f hr, rfl, rfl, ⟨data, b0, e1, e2, Grown.same e3⟩,
        ⟨data', e4, e5⟩⟩
    · exact absurd h hn

/-- C94 for CREX, what is left when loading fails: everything as it was, except when
the element table of the best candidate can be read and its sequence table cannot. -/
theorem C94_crex_failed_partial (S : System) (ops : List ProcessOp) (hq : ∀ op ∈ ops, op.InRange)
    (t : Tables) (id : CrexTableID)
    (h : ((Process.after S ops).load_crex S t id).2.2 ≠ .ok ())
    (hs : ∀ f, IsBest (UsableC id) (CloserC id) ((Process.after S ops).dirs.tables S.names) f →
      (∃ data b, S.files f.btable_pathname = some data ∧ Vartable.load_crex S.E data = .ok b) →
      ∃ data d, S.files f.dtable_pathname = some data ∧ DTable.load data = .ok d) :
    ((Process.after S ops).load_crex S t id).2.1 = t := by
  have hi : (Process.after S ops).Inv S := foldl_inv S ops hq _ (fresh_inv S [])
  generalize Process.after S ops = p at h hi hs
  have hbest := find_crex_best hi.dirs id
  unfold Process.load_crex at h ⊢
  simp only at h ⊢
  cases hr : (p.dirs.find_crex S.names id).1 with
  | none => rfl
  | some f =>
    rw [hr] at h
    simp only at h ⊢
    rcases setCrex_cases S { p with dirs := (p.dirs.find_crex S.names id).2 } t f with
      ⟨ho, -⟩ | ⟨-, h1 | ⟨b, -, h2, h3⟩⟩
    · exact absurd ho h
    · exact h1
    · obtain ⟨data, b0, e1, e2, -⟩ := loadOnce_ok Grown.crex hi.crex_b h2
      obtain ⟨data', d, e3, e4⟩ := hs f (hbest f hr) ⟨data, b0, e1, e2⟩
      exact absurd e4 (loadOnce_fails h3 data' e3 d)

/-- C93, which tables a BUFR message is decoded with: whatever was done before, those of a
best candidate for the centre, subcentre and versions in the header, as the files say,
and nothing else. -/
theorem C93_bufr_tables (S : System) (ops : List ProcessOp) (hq : ∀ op ∈ ops, op.InRange)
    (O : Opts) (add_undef : Bool) (depth : Nat) (data : List Byte)
    (r : BufrDec.Head × List (List Var) × List Nat)
    (h : ((Process.after S ops).decodeBufr S O add_undef depth data).2 = .ok r) :
    ∃ id : BufrTableID, id.originating_centre = r.1.header.originating_centre ∧
      id.originating_subcentre = r.1.header.originating_subcentre ∧
      id.master_table_number = r.1.header.master_table_number ∧
      id.master_table_version_number = r.1.header.master_table_version_number ∧
      id.master_table_version_number_local = r.1.header.master_table_version_number_local ∧
    ∃ f b d btext dtext,
      IsBest (UsableB id) (CloserB id) ((Process.after S ops).dirs.tables S.names) f ∧
      S.files f.btable_pathname = some btext ∧ Vartable.load_bufr S.E btext = .ok b ∧
      S.files f.dtable_pathname = some dtext ∧ DTable.load dtext = .ok d ∧
      decodeMessage (fun _ => .ok (⟨S.E, O, b, d⟩, noCaches)) add_undef depth data = .ok r := by
  refine ⟨bufrId r.1.header, rfl, rfl, rfl, rfl, rfl, ?_⟩
  have hload := C94_bufr_partial S ops hq .new (bufrId r.1.header)
  unfold Process.decodeBufr decodeMessage BufrDec.decode at h
  simp only at h
  obtain ⟨hd, h1, h⟩ := Res.bind_eq_ok.mp h
  obtain ⟨t, h2, h⟩ := Res.bind_eq_ok.mp h
  obtain ⟨x, h3, h⟩ := Res.bind_eq_ok.mp h
  obtain ⟨e, h4, h⟩ := Res.bind_eq_ok.mp h
  cases h
  simp only at hload ⊢
  generalize hg : (Process.after S ops).load_bufr S .new (bufrId hd.header) = g at h2 hload
  unfold context at h2
  cases hres : g.2.2 with
  | err e => rw [hres] at h2; cases h2
  | ub => rw [hres] at h2; cases h2
  | ok u =>
    obtain ⟨-, h5, f, b, d, h6, h7, h8, ⟨btext, b0, h9, h10, h11⟩, dtext, h12, h13⟩ := hload hres
    rw [hres, h7, h8, h5] at h2
    simp only [Res.ok.injEq] at h2
    subst h2
    refine ⟨f, b0, d, btext, dtext, h6, h9, h10, h12, h13, ?_⟩
    rw [decodeBody_alike (SameAnswers.alike h11 O d)] at h3
    unfold decodeMessage BufrDec.decode
    rw [h1, Res.ok_bind, Res.ok_bind]
    change decodeBody add_undef depth (_, noCaches) _ _ _ = _ at h3
    rw [h3, Res.ok_bind, h4]
    rfl

/-- C93, which tables a CREX message is decoded with: whatever was done before, those of a
best candidate for the edition and the versions in the header, with centre and
subcentre missing, as the files say, and nothing else. -/
theorem C93_crex_tables (S : System) (ops : List ProcessOp) (hq : ∀ op ∈ ops, op.InRange)
    (O : Opts) (depth fuel : Nat) (data : List Byte) (r : Crex.Header × List (List Var))
    (h : ((Process.after S ops).decodeCrex S O depth fuel data).2 = some (.ok r)) :
    ∃ id : CrexTableID, id.edition_number = r.1.edition_number ∧
      id.originating_centre = 65535 ∧ id.originating_subcentre = 65535 ∧
      id.master_table_number = r.1.master_table_number ∧
      id.master_table_version_number = r.1.master_table_version_number ∧
      id.master_table_version_number_bufr = r.1.master_table_version_number_bufr ∧
      id.master_table_version_number_local = 0 ∧
    ∃ f b d btext dtext,
      IsBest (UsableC id) (CloserC id) ((Process.after S ops).dirs.tables S.names) f ∧
      S.files f.btable_pathname = some btext ∧ Vartable.load_crex S.E btext = .ok b ∧
      S.files f.dtable_pathname = some dtext ∧ DTable.load dtext = .ok d ∧
      Crex.Decoder.decode (fun _ => .ok (⟨S.E, O, b, d⟩, noCaches)) depth fuel data =
        some (.ok r) := by
  refine ⟨crexId r.1, rfl, rfl, rfl, rfl, rfl, rfl, rfl, ?_⟩
  have hload := C94_crex_partial S ops hq .new (crexId r.1)
  unfold Process.decodeCrex Crex.Decoder.decode at h
  unfold Crex.Decoder.decode
  simp only at h ⊢
  cases hh : Crex.Decoder.decode_header fuel data with
  | none => rw [hh] at h; cases h
  | some z =>
  rw [hh] at h
  cases z with
  | err e => cases h
  | ub => cases h
  | ok z =>
  obtain ⟨i, hd⟩ := z
  simp only at h ⊢
  cases h2 : context S O ((Process.after S ops).load_crex S .new (crexId hd)) with
  | err e => rw [h2] at h; cases h
  | ub => rw [h2] at h; cases h
  | ok t =>
  rw [h2] at h
  simp only at h
  have hr : r.1 = hd := by
    obtain ⟨a, h3, h4⟩ := Option.map_eq_some_iff.mp h
    obtain ⟨s, -, h5⟩ := Res.bind_eq_ok.mp h4
    cases h5
    rfl
  rw [hr] at hload
  rw [hr]
  generalize hg : (Process.after S ops).load_crex S .new (crexId hd) = g at h2 hload
  unfold context at h2
  cases hres : g.2.2 with
  | err e => rw [hres] at h2; cases h2
  | ub => rw [hres] at h2; cases h2
  | ok u =>
    obtain ⟨-, h5, f, b, d, h6, h7, h8, ⟨btext, b0, h9, h10, h11⟩, dtext, h12, h13⟩ := hload hres
    rw [hres, h7, h8, h5] at h2
    simp only [Res.ok.injEq] at h2
    subst h2
    refine ⟨f, b0, d, btext, dtext, h6, h9, h10, h12, h13, ?_⟩
    simp only at h
    rw [Crex.Decoder.decode_data_alike (SameAnswers.alike h11 O d)] at h
    exact h

/-- The tables of a bulletin after those for one identifier and then those for another
have been asked for, and what the second gave. -/
def loadTwice (S : System) (p : Process) (id id' : BufrTableID) : Tables × Res Unit :=
  let r := p.load_bufr S .new id
  (r.1.load_bufr S r.2.1 id').2

/-- C94 fails: when the element table of the new identifier can be read and its sequence
table cannot, loading fails and leaves the new element table together with the old
sequence table, and `Tables::loaded` says that tables are loaded. -/
theorem C94_not_atomic :
    let r := loadTwice twoVersions (fresh [ascii "/t"]) ⟨0, 0, 0, 19, 0⟩ ⟨0, 0, 0, 20, 0⟩
    r.2 = .err .system ∧ r.1.loaded = true ∧
    r.1.btable.map (·.1) = some (ascii "/t/B000000000002000.txt") ∧
    r.1.dtable.map (·.1) = some (ascii "/t/D000000000001900.txt") := by
  decide +kernel

/-- C94 applies: the tables of the first version can be loaded, those of a third cannot
and the tables stay as they were. -/
example :
    let p := Process.after twoVersions [.add (ascii "/t")]
    let r := p.load_bufr twoVersions .new ⟨0, 0, 0, 19, 0⟩
    let r' := r.1.load_bufr twoVersions r.2.1 ⟨0, 0, 0, 21, 0⟩
    r.2.2 = .ok () ∧ r.2.1.btable = some (ascii "/t/B000000000001900.txt", sampleTable) ∧
    r'.2.2 = .err .notfound ∧ r'.2.1.btable = r.2.1.btable := by
  decide +kernel

/-- A CREX table in a directory. -/
def crexSystem : System where
  E := Env0
  names := fun d => if d = ascii "/t" then [ascii "B000103.txt", ascii "D000103.txt"] else []
  files := fun k =>
    if k = ascii "/t/B000103.txt" then some sampleTableText
    else if k = ascii "/t/D000103.txt" then some sampleDText
    else none

/-- A CREX message for a version of the table. -/
def crexFor (version : String) : List Byte :=
  ascii "CREX++ T0001" ++ ascii version ++ ascii " A004 B12101++ 2731++ 7777"

/-- What a process decodes a CREX message to. -/
def crexDecodedBy (p : Process) (m : List Byte) : Option (Res (List (List (Option Value)))) :=
  (p.decodeCrex crexSystem sampleCtx.O 1 50 m).2.map fun r =>
    r >>= fun x => .ok (x.2.map fun s => s.map (·.toVarCore.view))

/-- Messages for a version that there is and one that there is not. -/
def crexOps : List ProcessOp :=
  [.add (ascii "/t"), .crex sampleCtx.O 1 50 (crexFor "03"), .crex sampleCtx.O 1 50 (crexFor "04")]

/-- C93 and C94 apply to CREX: a message is decoded with the table of its version, before
and after others. -/
example :
    crexDecodedBy (.after crexSystem [.add (ascii "/t")]) (crexFor "03") =
      some (.ok [[some (.num 2731)]]) ∧
    crexDecodedBy (.after crexSystem crexOps) (crexFor "03") = some (.ok [[some (.num 2731)]]) ∧
    crexDecodedBy (.after crexSystem crexOps) (crexFor "04") = some (.err .notfound) := by
  decide +kernel

end Wreport
