import Verif.Lemmas.PythonTables

/-!
# C104, C105: tables from Python
-/

namespace Wreport

open Spec Tabledir Process Py

/-! ## C104 -/

/-- C104 for BUFR tables: whatever was done before, `get_bufr` with numbers that fit their
fields gives the element table of a best candidate, as its file says, `KeyError` exactly
when there is no candidate, and the error of its file otherwise. Missing from the full
property: numbers that do not fit are not refused (see `C104_not_fields`). -/
theorem C104_bufr_partial (S : System) (ops : List TableOp) (hq : ∀ op ∈ ops, op.InRange)
    (a : BufrArgs) (id : BufrTableID) (ha : BufrAsked a id) :
    let p := afterTables S ops
    TableAnswer S.E S.files (Vartable.load_bufr S.E)
      (IsBest (UsableB id) (CloserB id) (p.dirs.tables S.names)) (get_bufr S p a).2.done := by
  intro p
  have h := getBufr_answer (afterTables_inv S ops hq) id
  simp only [get_bufr, bufrAsk_asked ha]
  exact h

/-- C104 for CREX tables, when both versions are given. Missing from the full property:
see `C104_not_crex`. -/
theorem C104_crex_partial (S : System) (ops : List TableOp) (hq : ∀ op ∈ ops, op.InRange)
    (a : CrexArgs) (id : CrexTableID) (ha : CrexAsked a id) :
    let p := afterTables S ops
    TableAnswer S.E S.files (Vartable.load_crex S.E)
      (IsBest (UsableC id) (CloserC id) (p.dirs.tables S.names)) (get_crex S p a).2.done := by
  intro p
  have h := getCrex_answer (afterTables_inv S ops hq) id
  simp only [get_crex, crexAsk_asked ha]
  exact h

/-- C104, tables asked for by name: the first table with that name in the order of the
directories. -/
theorem C104_name (S : System) (ops : List TableOp) (hq : ∀ op ∈ ops, op.InRange)
    (s : List Char) (hs : NulFree (encode s)) :
    let p := afterTables S ops
    TableAnswer S.E S.files (Vartable.load_bufr S.E) (FirstNamed (p.dirs.tables S.names) (encode s))
      (get_bufr S p { basename := some (.str s) }).2.done ∧
    TableAnswer S.E S.files (Vartable.load_crex S.E) (FirstNamed (p.dirs.tables S.names) (encode s))
      (get_crex S p { basename := some (.str s) }).2.done := by
  intro p
  have hi := afterTables_inv S ops hq
  have h0 : argText (.str s) = .ok (encode s) := by
    simp only [argText]
    rw [if_neg (fun h => hs 0 h rfl)]
  have hb : bufrAsk { basename := some (.str s) } = .ok (.inl (encode s)) := by
    simp only [bufrAsk, optText, optInt, h0]; rfl
  have hc : crexAsk { basename := some (.str s) } = .ok (.inl (encode s)) := by
    simp only [crexAsk, optText, optInt, h0]; rfl
  simp only [get_bufr, get_crex, hb, hc]
  exact ⟨nameBufr_answer hi _, nameCrex_answer hi _⟩

/-- C104, arguments that do not say which table: `ValueError`, and nothing is read. -/
theorem C104_missing (S : System) (p : Process) (a : BufrArgs) (b : CrexArgs) (c s m l : Int)
    (hr : inInt c = true ∧ inInt s = true ∧ inInt m = true ∧ inInt l = true)
    (ha : a.basename = none ∧ Num a.originating_centre 0 c ∧ Num a.originating_subcentre 0 s ∧
      Num a.master_table_number 0 m ∧ a.master_table_version_number = none ∧
      Num a.master_table_version_number_local 0 l) (e : Int) (he : inInt e = true)
    (hb : b.basename = none ∧ Num b.edition_number 2 e ∧ Num b.originating_centre 0 c ∧
      Num b.originating_subcentre 0 s ∧ Num b.master_table_number 0 m ∧
      b.master_table_version_number = none ∧ b.master_table_version_number_bufr = none ∧
      Num b.master_table_version_number_local 0 l) :
    (get_bufr S p a).2.done = .raised .value ∧ (get_bufr S p a).1 = p ∧
    (get_crex S p b).2.done = .raised .value ∧ (get_crex S p b).1 = p := by
  obtain ⟨h1, h2, h3, h4⟩ := hr
  obtain ⟨a0, a1, a2, a3, a4, a5⟩ := ha
  obtain ⟨b0, b1, b2, b3, b4, b5, b6, b7⟩ := hb
  have ea : bufrAsk a = .error .value := by
    unfold bufrAsk
    rw [a0, optInt_num a1 h1, optInt_num a2 h2, optInt_num a3 h3, a4, optInt_num a5 h4]
    rfl
  have eb : crexAsk b = .error .value := by
    unfold crexAsk
    rw [b0, optInt_num b1 he, optInt_num b2 h1, optInt_num b3 h2, optInt_num b4 h3, b5, b6,
      optInt_num b7 h4]
    rfl
  simp only [get_bufr, get_crex, ea, eb]
  exact ⟨rfl, trivial, rfl, trivial⟩

/-- C104, the table of a message: a BUFR message that can be decoded is decoded with
exactly the element table that `get_bufr` gives for the numbers in its header. -/
theorem C104_message (S : System) (ops : List TableOp) (O : Opts) (add_undef : Bool) (depth : Nat)
    (data : List Byte) (r : BufrDec.Head × List (List Var) × List Nat) (a : BufrArgs)
    (ha : BufrAsked a ⟨r.1.header.originating_centre, r.1.header.originating_subcentre,
      r.1.header.master_table_number, r.1.header.master_table_version_number,
      r.1.header.master_table_version_number_local⟩)
    (h : ((afterTables S ops).decodeBufr S O add_undef depth data).2 = .ok r) :
    ∃ path t d, (get_bufr S (afterTables S ops) a).2.done = .returned (path, t) ∧
      decodeMessage (fun _ => .ok (⟨S.E, O, t, d⟩, noCaches)) add_undef depth data = .ok r := by
  generalize afterTables S ops = p at h
  unfold Process.decodeBufr decodeMessage BufrDec.decode at h
  simp only at h
  obtain ⟨hd, h1, h⟩ := Res.bind_eq_ok.mp h
  obtain ⟨t, h2, h⟩ := Res.bind_eq_ok.mp h
  obtain ⟨x, h3, h⟩ := Res.bind_eq_ok.mp h
  obtain ⟨e, h4, h⟩ := Res.bind_eq_ok.mp h
  cases h
  simp only at ha
  unfold Process.load_bufr at h2
  simp only at h2
  simp only [get_bufr, bufrAsk_asked ha, Process.getBufr]
  change ∃ path t d, (caught none (match (p.dirs.find_bufr S.names (bufrId hd.header)).1 with
    | none => _ | some f => _ : Process × Res (List Byte × Vartable)).2).done = _ ∧ _
  cases hr : (p.dirs.find_bufr S.names (bufrId hd.header)).1 with
  | none => rw [hr] at h2; cases h2
  | some f =>
    rw [hr] at h2
    simp only at h2 ⊢
    rcases setBufr_cases S { p with dirs := (p.dirs.find_bufr S.names (bufrId hd.header)).2 } .new f with
      ⟨e1, b, d, e2, e3, e4⟩ | ⟨hn, -⟩
    · unfold context at h2
      rw [e1, e2] at h2
      simp only [Res.ok.injEq] at h2
      subst h2
      refine ⟨f.btable_pathname, b, d, ?_, ?_⟩
      · unfold vartableBufr
        simp only at e3 ⊢
        rw [e3]
        rfl
      · unfold decodeMessage BufrDec.decode
        rw [h1, Res.ok_bind, Res.ok_bind]
        change decodeBody add_undef depth (_, noCaches) _ _ _ = _ at h3
        rw [h3, Res.ok_bind, h4]
        rfl
    · unfold context at h2
      split at h2
      · cases h2
      · cases h2
      · next hc => exact absurd hc hn

/-- The path of the table that a call gave, or the exception. -/
def pathOf (r : Process × Ret (List Byte × Vartable)) : Option (List Byte ⊕ Exc) :=
  match r.2.done with
  | .returned (k, _) => some (.inl k)
  | .raised e => some (.inr e)
  | .ub => none

/-- A call of `get_bufr` with a version in a new process. -/
def askVersion (n : Int) : Option (List Byte ⊕ Exc) :=
  pathOf (get_bufr twoVersions (.fresh [ascii "/t"]) { master_table_version_number := some (.int n) })

/-- C104 fails: a version that does not fit its field is not refused, another one is
used. Here 275 is 19. -/
theorem C104_not_fields :
    askVersion 275 = some (.inl (ascii "/t/B000000000001900.txt")) ∧ askVersion 275 = askVersion 19 := by
  decide +kernel

/-- C104 fails: when one version is not given the other does not find any table; the table
that a message with this version is decoded with is not found. -/
theorem C104_not_crex :
    pathOf (get_crex crexSystem (.fresh [ascii "/t"])
      { edition_number := some (.int 1), master_table_version_number := some (.int 3) }) = some (.inr .key) ∧
    pathOf (get_crex crexSystem (.fresh [ascii "/t"])
      { edition_number := some (.int 1), master_table_version_number := some (.int 3),
        master_table_version_number_bufr := some (.int 0) }) = some (.inl (ascii "/t/B000103.txt")) ∧
    crexDecodedBy (.fresh [ascii "/t"]) (crexFor "03") = some (.ok [[some (.num 2731)]]) := by
  decide +kernel

/-- C104 fails for every directory: with only the version of the CREX table no CREX table
is found; the table given is a BUFR table with version 255. -/
theorem C104_not_crex_any (S : System) (ops : List TableOp) (hq : ∀ op ∈ ops, op.InRange)
    (n : Nat) (hn : n < 256) (path : List Byte) (t : Vartable)
    (h : (get_crex S (afterTables S ops) { master_table_version_number := some (.int n) }).2.done =
      .returned (path, t)) :
    ∃ f ∈ (afterTables S ops).dirs.tables S.names, f.btable_pathname = path ∧
      ∃ id, f.kind = .bufr id ∧ id.master_table_version_number = 255 := by
  have hk : crexAsk { master_table_version_number := some (.int n) } =
      .ok (.inr ⟨2, 0, 0, 0, toU8 n, 255, 0⟩) := by
    simp only [crexAsk, optText, optInt, argInt, if_pos (inInt_of (show n < 65536 by omega)), bind,
      Except.bind, pure, Except.pure, if_neg (show ¬ ((n : Int) = -1) by omega)]
    rfl
  have ha := getCrex_answer (afterTables_inv S ops hq) ⟨2, 0, 0, 0, toU8 n, 255, 0⟩
  simp only [get_crex, hk] at h
  rw [h] at ha
  obtain ⟨f, -, -, ⟨hm, hu, -⟩, rfl, -⟩ := ha
  refine ⟨f, hm, rfl, ?_⟩
  obtain ⟨d, -, hd⟩ := List.mem_flatMap.mp hm
  have hp := dir_plain d (S.names d) f hd
  cases hkind : f.kind with
  | bufr id =>
    rw [hkind] at hu
    refine ⟨id, rfl, ?_⟩
    have := hu.2
    rw [UInt8.le_iff_toNat_le] at this
    apply UInt8.toNat_inj.mp
    have hb := id.master_table_version_number.toNat_lt
    change 255 ≤ _ at this
    change _ = 255
    omega
  | crex id =>
    rw [hkind] at hu
    have h0 := hp id hkind
    have h1 := hu.2.2.2
    rw [h0.2.2.1] at h1
    change (255 : UInt8) ≤ 0 at h1
    exact absurd h1 (by decide)
  | raw => rw [hkind] at hu; exact hu.elim

/-- C104 fails: the default of `basename` in the documentation cannot be given. -/
theorem C104_not_none : pathOf (get_bufr twoVersions (.fresh [ascii "/t"])
    { basename := some .none, master_table_version_number := some (.int 19) }) = some (.inr .type) := by
  decide +kernel

/-- C104 applies: the second version for a version that is not there, `KeyError` for later
versions, and a name. -/
example :
    BufrAsked { master_table_version_number := some (.int 19) } ⟨0, 0, 0, 19, 0⟩ ∧
    askVersion 20 = some (.inl (ascii "/t/B000000000002000.txt")) ∧
    askVersion 21 = some (.inr .key) ∧
    pathOf (get_bufr twoVersions (.fresh [ascii "/t"])
      { basename := some (.str "B000000000002000".toList) }) =
        some (.inl (ascii "/t/B000000000002000.txt")) := by
  refine ⟨⟨rfl, .inl ⟨rfl, rfl⟩, .inl ⟨rfl, rfl⟩, .inl ⟨rfl, rfl⟩, rfl, .inl ⟨rfl, rfl⟩⟩, ?_⟩
  decide +kernel

/-! ## C105 -/

/-- Looking up a text that is a code. -/
theorem key_code {s : List Char} {c : Varcode} (hn : NulFree (encode s)) (h : varcode_parse (encode s) = .ok c)
    (t : Vartable) : inTable t (.str s) = caught none (t.contains c) ∧
      subscript t (.str s) = caught none (t.query c) := by
  have hk : keyText (.str s) = .ok (encode s) := by
    simp only [keyText]
    rw [List.takeWhile_eq_self_iff.mpr]
    intro b hb
    simpa using hn b hb
  simp only [inTable, subscript, hk, h, Res.ok_bind, and_self]

/-- C105, texts that are codes: in a table in use, a code that has an entry is found, it
is the code of what is found, and its printed form finds the same again; any other code
gives `KeyError` and is not in the table. Missing from the full property: texts that are
not codes are not always refused, and the table has no length and cannot be iterated (see
the `C105_not_...` theorems). -/
theorem C105_lookup_partial (E : Env) (t : Vartable) (ht : t.Reachable E) (s : List Char) (f x y : Nat)
    (hs : IsDescriptorText (encode s) f x y) :
    (∃ e ∈ t.entries, e.varinfo.code = descriptorCode f x y ∧
      (subscript t (.str s)).done = .returned e.varinfo ∧ (inTable t (.str s)).done = .returned true ∧
      ∃ u, (infoCode e.varinfo).done = .returned (.str u) ∧
        (subscript t (.str u)).done = .returned e.varinfo ∧ (inTable t (.str u)).done = .returned true) ∨
    ((∀ e ∈ t.entries, e.varinfo.code ≠ descriptorCode f x y) ∧
      (subscript t (.str s)).done = .raised .key ∧ (inTable t (.str s)).done = .returned false) := by
  have hp : varcode_parse (encode s) = .ok (descriptorCode f x y) := by
    have := C02_parse_canonical_partial _ [] f x y hs
    rwa [List.append_nil] at this
  have hlt : descriptorCode f x y < 65536 := by
    obtain ⟨c, d1, d2, d3, d4, d5, -, hc, -, -, hx, -, hy⟩ := hs
    have := (varcodeParseF_letter c f hc).2
    unfold descriptorCode
    omega
  have hn : NulFree (encode s) := by
    obtain ⟨c, d1, d2, d3, d4, d5, he, hc, hd, -⟩ := hs
    rw [he]
    intro b hb e
    subst e
    rw [List.mem_cons] at hb
    rcases hb with rfl | hb
    · cases hc
    · exact absurd (hd 0 hb).1 (by decide)
  obtain ⟨k1, k2⟩ := key_code hn hp t
  rw [k1, k2]
  rcases C40_lookup E t ht (descriptorCode f x y) with ⟨e, he, hc, hq, hin, -⟩ | ⟨hne, hq, hin⟩
  · left
    refine ⟨e, he, hc, by rw [hq]; rfl, by rw [hin]; rfl, ?_⟩
    obtain ⟨u, hu⟩ := utf8_varcode e.varinfo.code
    have hun : NulFree (encode u) := by
      intro b hb h0
      subst h0
      have := argText_code hu
      simp only [argText, if_pos hb] at this
      cases this
    obtain ⟨j1, j2⟩ := key_code hun (by rw [hu]; exact C01_parse_format _ (by rw [hc]; exact hlt)) t
    refine ⟨u, ?_, by rw [j2, hc, hq]; rfl, by rw [j1, hc, hin]; rfl⟩
    unfold infoCode strToPython
    rw [decode_iff.mpr hu]
    rfl
  · exact .inr ⟨hne, by rw [hq]; rfl, by rw [hin]; rfl⟩

/-- C105, all objects: `in` and `[]` agree, except for texts that the library cannot look
at. They raise the same exceptions, `TypeError` for what is not a string, and what is
found has an entry in the table. -/
theorem C105_agree_partial (E : Env) (t : Vartable) (ht : t.Reachable E) (o : Obj)
    (ho : ∀ s, keyText o = .ok s → varcode_parse s ≠ .ub) :
    (∃ e ∈ t.entries, (inTable t o).done = .returned true ∧ (subscript t o).done = .returned e.varinfo) ∨
    ((inTable t o).done = .returned false ∧ (subscript t o).done = .raised .key) ∨
    ∃ x, (inTable t o).done = .raised x ∧ (subscript t o).done = .raised x ∧
      match o with
      | .str _ => x = .runtime
      | .surrogates => x = .unicodeEncode
      | _ => x = .type := by
  unfold inTable subscript
  cases hk : keyText o with
  | error x =>
    right; right
    refine ⟨x, rfl, rfl, ?_⟩
    unfold keyText at hk
    split at hk <;> cases hk
    · rfl
    · split <;> simp_all
  | ok s =>
    have hstr : ∃ u, o = .str u := by
      cases o <;> first | exact ⟨_, rfl⟩ | cases hk
    obtain ⟨u, rfl⟩ := hstr
    rcases parse_cases (ho s hk) with ⟨c, hc⟩ | hc
    · simp only [hc, Res.ok_bind]
      rcases C40_lookup E t ht c with ⟨e, he, -, hq, hin, -⟩ | ⟨-, hq, hin⟩
      · exact .inl ⟨e, he, by rw [hin]; rfl, by rw [hq]; rfl⟩
      · exact .inr (.inl ⟨by rw [hin]; rfl, by rw [hq]; rfl⟩)
    · right; right
      simp only [hc]
      exact ⟨.runtime, rfl, rfl, rfl⟩

/-- C105, texts in which one of the five characters after the first is not a digit:
`RuntimeError`. -/
theorem C105_malformed_partial (t : Vartable) (s : List Char) (hn : NulFree (encode s)) (c b : Byte)
    (pre post : List Byte) (hs : encode s = c :: (pre ++ b :: post)) (hl : pre.length < 5)
    (hb : isDigit b = false) :
    (inTable t (.str s)).done = .raised .runtime ∧ (subscript t (.str s)).done = .raised .runtime := by
  have hk : keyText (.str s) = .ok (encode s) := by
    simp only [keyText]
    rw [List.takeWhile_eq_self_iff.mpr]
    intro b hb
    simpa using hn b hb
  have hp : varcode_parse (encode s) = .err .consistency := by
    rw [hs]
    exact C02_nondigit_rejected_partial c b pre post hl hb
  simp only [inTable, subscript, hk, hp]
  exact ⟨rfl, rfl⟩

/-- C105 fails: the length of a table is 0, whatever is in it. -/
theorem C105_not_length : sampleTable.entries.length = 2 ∧ Py.length sampleTable = 0 := by
  decide +kernel

/-- C105 fails: iterating over any table never ends. -/
theorem C105_not_iterate (t : Vartable) (n i : Nat) : Py.iterate t n i = none := by
  induction n generalizing i with
  | zero => rfl
  | succ n ih =>
    simp only [Py.iterate, item, Ret.done, ih]
    rfl

/-- C105 fails: what follows a NUL, and which letter comes first, do not matter. -/
theorem C105_not_refused :
    (inTable sampleTable (.str "B12101".toList)).done = .returned true ∧
    (inTable sampleTable (.str ("B12101".toList ++ [Char.ofNat 0] ++ "junk".toList))).done = .returned true ∧
    (inTable sampleTable (.str "B12101junk".toList)).done = .returned true ∧
    (inTable sampleTable (.str "X12101".toList)).done = .returned true := by
  decide +kernel

/-- C105 fails: a text that is too short is read past its end. -/
theorem C105_not_short : (subscript sampleTable (.str "B12".toList)).done = .ub := by
  decide +kernel

/-- C105 applies: a code that is in the table, one that is not, a text that is not a code
and a number. -/
example : IsDescriptorText (encode "B12101".toList) 0 12 101 ∧
    ((subscript sampleTable (.str "B12101".toList)).map (·.code)).done = .returned (WR_VAR 0 12 101) ∧
    (subscript sampleTable (.str "B12102".toList)).done = .raised .key ∧
    (subscript sampleTable (.str "Btemp1".toList)).done = .raised .runtime ∧
    (subscript sampleTable (.int 3173)).done = .raised .type := by
  refine ⟨⟨0x42, 0x31, 0x32, 0x31, 0x30, 0x31, by decide, by decide, by decide, by decide, by decide,
    by decide, by decide⟩, ?_⟩
  decide +kernel

end Wreport
