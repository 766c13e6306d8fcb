import Verif.Lemmas.WrepRun
import Verif.Props.WrepSamples

/-!
# The program `wrep`: theorems
-/

namespace Wreport

open Spec Process

/-- C97: with any command line that asks for the messages that cannot be decoded, `wrep`
writes exactly those, whole, one after the other, in the order in which the files have
them; each message is judged as if it were the only one. It does end unless decoding one
of the messages, alone, does not end or is not defined. -/
theorem C97_copied (M : Wrep.Machine) {args files : List (List Byte)} {o : Wrep.Options}
    (hc : Command args .new o files) (ha : o.action = .unparsable) (hf : files ≠ [])
    (out : List Byte) (status : Nat) :
    let alone := fun raw => (Wrep.decode M o.crex (.fresh M.dirs) raw).2
    Wrep.main M args = .ended (out, status) ↔ status = 0 ∧
      ∃ mss, List.Forall₂ (fun f ms => FileHolds (Stream.readOf o.crex) (M.inputs f) ms) files mss ∧
        (∀ m ∈ mss.flatten, Settled (alone m.1)) ∧
        out = ((mss.flatten.map Prod.fst).filter fun raw => isRefused (alone raw)).flatten := by
  intro alone
  rw [Wrep.main_reads M hc (by rw [ha]; exact ⟨nofun, nofun, nofun⟩) hf]
  rw [Wrep.Ran.andThen_ended]
  simp only [Wrep.Ran.ended.injEq, Prod.mk.injEq, Wrep.readFiles_ended (o := o) (by rw [ha]; nofun)]
  have key : ∀ (l : List (List Byte × Stream.Msg)) (outs : List (List Byte)),
      List.Forall₂ (fun (x : List Byte × Stream.Msg) t => Wrep.about M o x.1 x.2 = .ended t) l outs ↔
      (∀ m ∈ l.map (·.2), Settled (alone m.1)) ∧
        outs = (l.map (·.2)).map fun m => if isRefused (alone m.1) then m.1 else [] := by
    intro l
    induction l with
    | nil => intro outs; simp
    | cons x l ih =>
      intro outs
      have e : Wrep.about M o x.1 x.2 = Wrep.copyUnparsable x.2.1 (alone x.2.1) := by
        unfold Wrep.about
        rw [ha]
      rw [List.forall₂_cons_left_iff]
      simp only [ih, e, Wrep.copy_ended]
      constructor
      · rintro ⟨t, ts, ⟨h1, rfl⟩, ⟨h2, rfl⟩, rfl⟩
        exact ⟨by simpa using ⟨h1, by simpa using h2⟩, rfl⟩
      · rintro ⟨h1, rfl⟩
        simp only [List.map_cons, List.mem_cons, forall_eq_or_imp] at h1
        exact ⟨_, _, ⟨h1.1, rfl⟩, ⟨h1.2, rfl⟩, rfl⟩
  have flat : ∀ ms : List Stream.Msg,
      (ms.map fun m => if isRefused (alone m.1) then m.1 else []).flatten =
      ((ms.map Prod.fst).filter fun raw => isRefused (alone raw)).flatten := by
    intro ms
    induction ms with
    | nil => rfl
    | cons m ms ih =>
      simp only [List.map_cons, List.flatten_cons, ih, List.filter_cons]
      split <;> simp
  constructor
  · rintro ⟨a, ⟨mss, h1, outs, h2, rfl⟩, rfl, rfl⟩
    obtain ⟨h3, rfl⟩ := (key _ _).mp h2
    rw [Wrep.zip_messages h1.length_eq] at h3 ⊢
    exact ⟨rfl, mss, h1, h3, flat _⟩
  · rintro ⟨rfl, mss, h1, h3, rfl⟩
    refine ⟨_, ⟨mss, h1, _, (key _ _).mpr ⟨?_, rfl⟩, rfl⟩, ?_, rfl⟩
    · rw [Wrep.zip_messages h1.length_eq]; exact h3
    · rw [Wrep.zip_messages h1.length_eq]; exact flat _

/-- C97, once more: what `wrep` has copied is, as a file, copied as it is. -/
theorem C97_again (M : Wrep.Machine) {args files : List (List Byte)} {o : Wrep.Options}
    (hc : Command args .new o files) (ha : o.action = .unparsable) (hf : files ≠ [])
    {out : List Byte} {status : Nat} (h : Wrep.main M args = .ended (out, status))
    (inputs : List Byte → Option (List Byte)) {args' : List (List Byte)} {o' : Wrep.Options}
    {f : List Byte} (hc' : Command args' .new o' [f]) (ha' : o'.action = .unparsable)
    (hx : o'.crex = o.crex) (hi : inputs f = some out) :
    Wrep.main { M with inputs := inputs } args' = .ended (out, 0) := by
  obtain ⟨-, mss, h1, h2, e⟩ := (C97_copied M hc ha hf out status).mp h
  have hmem : ∀ m ∈ mss.flatten, m.1 ≠ [] ∧ ∀ t pos, Stream.readOf o.crex ⟨m.1 ++ t, pos⟩ =
      .ok (some ((m.1, pos), ⟨t, pos + m.1.length⟩)) := by
    clear h2 h hi e hc hf
    induction h1 with
    | nil => simp
    | cons hh _ ih =>
      intro m hm
      rw [List.flatten_cons, List.mem_append] at hm
      rcases hm with hm | hm
      · exact Wrep.holds_again hh m hm
      · exact ih m hm
  have kept : ∀ raw ∈ (mss.flatten.map Prod.fst).filter
      (fun raw => isRefused (Wrep.decode M o.crex (.fresh M.dirs) raw).2),
      (∃ m ∈ mss.flatten, m.1 = raw) ∧
        isRefused (Wrep.decode M o.crex (.fresh M.dirs) raw).2 = true := by
    intro raw hr
    obtain ⟨h1, h2⟩ := List.mem_filter.mp hr
    obtain ⟨m, hm, rfl⟩ := List.mem_map.mp h1
    exact ⟨⟨m, hm, rfl⟩, h2⟩
  obtain ⟨ms, r1, r2⟩ := Stream.reads_again (crex := o.crex) _ (fun raw hr => by
    obtain ⟨⟨m, hm, rfl⟩, -⟩ := kept raw hr
    exact hmem m hm) 0
  refine (C97_copied { M with inputs := inputs } hc' ha' (by simp) out 0).mpr
    ⟨rfl, [ms], .cons ?_ .nil, ?_, ?_⟩
  · show FileHolds (Stream.readOf o'.crex) (inputs f) ms
    rw [hi, hx, e]
    exact r1
  · intro m hm
    rw [hx]
    have : m.1 ∈ ms.map Prod.fst := List.mem_map_of_mem (by simpa using hm)
    rw [r2] at this
    obtain ⟨⟨m', hm', em⟩, -⟩ := kept _ this
    have := h2 m' hm'
    rw [em] at this
    exact this
  · rw [hx]
    simp only [List.flatten_cons, List.flatten_nil, List.append_nil, r2]
    rw [e]
    congr 1
    exact (List.filter_filter ..).symm ▸ (by simp [Wrep.decode, Wrep.Machine.dirs])

namespace Wrep

theorem find_varcode_none {subset : List Var} {c : Varcode} (h : find_varcode subset c = none) :
    ∀ v ∈ subset, v.code ≠ c := by
  induction subset with
  | nil => simp
  | cons v vs ih =>
    unfold find_varcode at h
    split at h
    · cases h
    · rename_i hc
      simpa using ⟨hc, ih h⟩

theorem find_varcode_some {subset : List Var} {c : Varcode} {v : Var}
    (h : find_varcode subset c = some v) :
    ∃ pre post, subset = pre ++ v :: post ∧ (∀ w ∈ pre, w.code ≠ c) ∧ v.code = c := by
  induction subset with
  | nil => cases h
  | cons w vs ih =>
    unfold find_varcode at h
    split at h
    · rename_i hc
      cases h
      exact ⟨[], vs, rfl, by simp, hc⟩
    · rename_i hc
      obtain ⟨pre, post, rfl, h1, h2⟩ := ih h
      exact ⟨w :: pre, post, rfl, by simpa using ⟨hc, h1⟩, h2⟩

theorem printCells_cells {E : Env} {subset : List Var} (hs : ∀ v ∈ subset, v.Sane E)
    (codes : List Varcode) :
    (printCells E subset codes).2 = .ok () ∧
      ∃ cells, Cells E subset codes cells ∧
        (printCells E subset codes).1 = cells.flatMap (ascii "\t" ++ ·) := by
  induction codes with
  | nil => exact ⟨rfl, [], .nil, rfl⟩
  | cons c cs ih =>
    obtain ⟨h1, cells, h2, h3⟩ := ih
    unfold printCells
    cases hf : find_varcode subset c with
    | none => exact ⟨h1, cells, .absent (find_varcode_none hf) h2, h3⟩
    | some v =>
      obtain ⟨pre, post, e, g1, g2⟩ := find_varcode_some hf
      obtain ⟨x, hx⟩ := Notes.format_ok (hs v (by rw [e]; simp)).core []
      simp only [hx]
      exact ⟨h1, x :: cells, .found e g1 g2 hx h2, by rw [h3]; simp⟩

theorem Cells_unique {E : Env} {subset : List Var} {codes : List Varcode} {a b : List (List Byte)}
    (ha : Cells E subset codes a) (hb : Cells E subset codes b) : a = b := by
  induction ha generalizing b with
  | nil => cases hb; rfl
  | absent h _ ih =>
    cases hb with
    | absent _ hb => exact ih hb
    | found e _ g _ _ => exact absurd g (h _ (by rw [e]; simp))
  | @found c cs xs pre post v x e h1 h2 h3 _ ih =>
    cases hb with
    | absent h _ => exact absurd h2 (h v (by rw [e]; simp))
    | @found _ _ xs' pre' post' v' x' e' h1' h2' h3' hb =>
      have : v = v' := by
        rw [e] at e'
        rcases List.append_eq_append_iff.mp e' with ⟨l, g1, g2⟩ | ⟨l, g1, g2⟩
        · cases l with
          | nil => simpa using (List.cons.inj g2).1
          | cons w l =>
            obtain ⟨rfl, -⟩ := List.cons.inj g2
            exact absurd h2 (h1' v (by rw [g1]; simp))
        · cases l with
          | nil => simpa using (List.cons.inj g2).1.symm
          | cons w l =>
            obtain ⟨rfl, -⟩ := List.cons.inj g2
            exact absurd h2' (h1 v' (by rw [g1]; simp))
      subst this
      rw [h3] at h3'
      cases h3'
      rw [ih hb]

theorem Rows_unique {E : Env} {fname : List Byte} {codes : List Varcode} {n : Nat}
    {ss : List (List Var)} {a b : List Byte} (ha : Rows E fname codes n ss a)
    (hb : Rows E fname codes n ss b) : a = b := by
  induction ha generalizing b with
  | nil => cases hb; rfl
  | cons hk hc _ ih =>
    cases hb with
    | cons hk' hc' hb =>
      rw [ih hb, Cells_unique hc hc', hk.unique hk']

theorem printVars_rows {E : Env} (fname : List Byte) (codes : List Varcode)
    {ss : List (List Var)} (hs : ∀ s ∈ ss, ∀ v ∈ s, v.Sane E) (n : Nat) :
    (printVars E fname codes n ss).2 = .ok () ∧
      Rows E fname codes (n + 1) ss (printVars E fname codes n ss).1 := by
  induction ss generalizing n with
  | nil => exact ⟨rfl, .nil⟩
  | cons s ss ih =>
    obtain ⟨h1, cells, h2, h3⟩ := printCells_cells (hs s (by simp)) codes
    obtain ⟨g1, g2⟩ := ih (fun s h => hs s (by simp [h])) (n + 1)
    unfold printVars
    simp only [h1, h3]
    refine ⟨g1, ?_⟩
    have := Rows.cons (fname := fname) (decDigits_decimal (n + 1)) h2 g2
    simpa [rowText] using this

theorem selected_ended {M : Machine} {fname : List Byte} {codes : List Varcode}
    {r : Option (Res (List (List Var)))}
    (hs : ∀ ss, r = some (.ok ss) → ∀ s ∈ ss, ∀ v ∈ s, v.Sane M.S.E) {t : List Byte} :
    printSelected M fname codes r = .ended t ↔ Listed M.S.E fname codes r t := by
  unfold Listed
  rcases r with - | (ss | e | -)
  · simp [printSelected]
  · obtain ⟨h1, h2⟩ := printVars_rows fname codes (hs ss rfl) 0
    simp only [printSelected, h1]
    constructor
    · intro h
      cases h
      exact .inr ⟨ss, rfl, h2⟩
    · rintro (⟨e, h, -⟩ | ⟨ss', h, h3⟩)
      · cases h
      · cases h
        rw [Rows_unique h2 h3]
  · simp [printSelected, eq_comm]
  · simp [printSelected]

theorem decode_sane {M : Machine} (hE : IsRounding M.S.E.fl) (hO : M.O.Sane M.S.E) (crex : Bool)
    (raw : List Byte) (ss : List (List Var))
    (h : (decode M crex (.fresh M.dirs) raw).2 = some (.ok ss)) : ∀ s ∈ ss, ∀ v ∈ s, v.Sane M.S.E := by
  unfold decode at h
  split at h
  · obtain ⟨q, h1, h2⟩ := Option.map_eq_some_iff.mp h
    obtain ⟨x, h3, h4⟩ := Res.bind_eq_ok.mp h2
    subst h3
    cases h4
    exact Process.decodeCrex_sane (Process.fresh_inv M.S M.dirs) hE hO h1
  · obtain ⟨x, h3, h4⟩ := Res.bind_eq_ok.mp (Option.some.inj h)
    cases h4
    exact Process.decodeBufr_sane (Process.fresh_inv M.S M.dirs) hE hO h3

end Wrep

/-- C98, in part: with any command line that asks for variables, `wrep` writes a row for each
subset of each message, in the order in which the files have them, with the name of the
file, the number of the subset counted from one, and the values of the first variable
with each of the codes; nothing about messages that cannot be decoded. It does end unless
decoding one of the messages, alone, does not end or is not defined.
Missing: that there is a column for each code, see `C98_not_columns`. -/
theorem C98_printed_partial (M : Wrep.Machine) (hE : IsRounding M.S.E.fl) (hO : M.O.Sane M.S.E)
    {args files : List (List Byte)} {o : Wrep.Options} (hc : Command args .new o files)
    (ha : o.action = .printVars) (hf : files ≠ []) (out : List Byte) (status : Nat) :
    let alone := fun raw => (Wrep.decode M o.crex (.fresh M.dirs) raw).2
    Wrep.main M args = .ended (out, status) ↔ status = 0 ∧
      ∃ mss, List.Forall₂ (fun f ms => FileHolds (Stream.readOf o.crex) (M.inputs f) ms) files mss ∧
      ∃ texts, List.Forall₂ (fun (x : List Byte × Stream.Msg) t =>
        Listed M.S.E x.1 o.varcodes (alone x.2.1) t) (named files mss) texts ∧ out = texts.flatten := by
  intro alone
  rw [Wrep.main_reads M hc (by rw [ha]; exact ⟨nofun, nofun, nofun⟩) hf]
  rw [Wrep.Ran.andThen_ended]
  simp only [Wrep.Ran.ended.injEq, Prod.mk.injEq, Wrep.readFiles_ended (o := o) (by rw [ha]; nofun)]
  have key : ∀ (x : List Byte × Stream.Msg) t, Wrep.about M o x.1 x.2 = .ended t ↔
      Listed M.S.E x.1 o.varcodes (alone x.2.1) t := by
    intro x t
    rw [← Wrep.selected_ended (fun ss h => Wrep.decode_sane hE hO o.crex x.2.1 ss h)]
    unfold Wrep.about
    rw [ha]
  simp only [key]
  constructor
  · rintro ⟨a, ⟨mss, h1, outs, h2, rfl⟩, rfl, rfl⟩
    exact ⟨rfl, mss, h1, outs, h2, rfl⟩
  · rintro ⟨rfl, mss, h1, outs, h2, rfl⟩
    exact ⟨_, ⟨mss, h1, outs, h2, rfl⟩, rfl, rfl⟩

/-- C98 does not hold: two codes are asked for, the message has one of them, and the row has
one column, without a word about which it is. -/
theorem C98_not_columns :
    Wrep.main printerMachine [ascii "--print=B02001,B01001", ascii "a"] =
      .ended (ascii "a:1:\t11\n", 0) ∧
    Wrep.main printerMachine [ascii "--print=B01001,B02001", ascii "a"] =
      .ended (ascii "a:1:\t11\n", 0) := by
  decide +kernel

/-- The messages that cannot be decoded are copied: between two files that have some is one
that cannot be opened, and the last message lacks its end. -/
example :
    Command [ascii "a", ascii "-U", ascii "x", ascii "b"] .new
      { Wrep.Options.new with action := .unparsable } [ascii "a", ascii "x", ascii "b"] ∧
    Wrep.main printerMachine [ascii "a", ascii "-U", ascii "x", ascii "b"] =
      .ended (otherMessage ++ otherMessage, 0) := by
  constructor
  · exact .file (by decide) (.letter (e := (85, ascii "unparsable", fun o => { o with action := .unparsable }))
      (by simp [documented]) (by decide) (.file (by decide) (.file (by decide) .nil)))
  · decide +kernel

/-- The hypotheses of C98 are met. -/
example :
    IsRounding printerMachine.S.E.fl ∧ printerMachine.O.Sane printerMachine.S.E ∧
    Command [ascii "a", ascii "--print=B12101,B01001", ascii "--", ascii "b"] .new
      { Wrep.Options.new with action := .printVars, varcodes := [WR_VAR 0 12 101, WR_VAR 0 1 1] }
      [ascii "a", ascii "b"] ∧
    Wrep.main printerMachine [ascii "a", ascii "--print=B12101,B01001", ascii "--", ascii "b"] =
      .ended (ascii "a:1:\t273.15\t11\nb:1:\t273.15\t11\n", 0) := by
  refine ⟨(sampleCtx_fit False).rounding, (sampleCtx_fit False).opts, ?_, by decide +kernel⟩
  refine .file (by decide) (.print (s := ascii "B12101,B01001") ?_ .stop)
  exact .more (s := ascii "B12101") (f := 0) (x := 12) (y := 101)
      ⟨_, _, _, _, _, _, rfl, rfl, by decide, rfl, by decide, rfl, by decide⟩
    (.one (s := ascii "B01001") (f := 0) (x := 1) (y := 1)
      ⟨_, _, _, _, _, _, rfl, rfl, by decide, rfl, by decide, rfl, by decide⟩)

/-! ## C99 -/

/-- C99, in part: a command line written as the help text says, but for `-h` and `-p`, is
understood.
Missing: the other two options and what is wrong, see below. -/
theorem C99_understood_partial {args files : List (List Byte)} {o : Wrep.Options}
    (h : Command args .new o files) :
    (Wrep.getopt none args).2 = files ∧
      Wrep.options .new (Wrep.getopt none args).1 = .ok (some o) :=
  ⟨(Wrep.command_understood h).2, (Wrep.command_understood h).1⟩

/-- C99, in part: however it is written, what is asked for is what is done. -/
theorem C99_alike_partial (M : Wrep.Machine) {args args' files : List (List Byte)}
    {o : Wrep.Options} (h : Command args .new o files) (h' : Command args' .new o files) :
    Wrep.main M args = Wrep.main M args' := by
  unfold Wrep.main
  simp only [(C99_understood_partial h).1, (C99_understood_partial h).2,
    (C99_understood_partial h').1, (C99_understood_partial h').2]

/-- Options may come after files, and their order does not matter when they do not ask for
the same thing. -/
example : Command [ascii "--crex", ascii "f", ascii "-U"] .new
      { Wrep.Options.new with crex := true, action := .unparsable } [ascii "f"] ∧
    Command [ascii "-U", ascii "-c", ascii "--", ascii "f"] .new
      { Wrep.Options.new with crex := true, action := .unparsable } [ascii "f"] := by
  constructor
  · exact .name (e := (99, ascii "crex", fun o => { o with crex := true })) (by simp [documented])
      (.file (by decide) (.letter (e := (85, ascii "unparsable", fun o => { o with action := .unparsable }))
      (by simp [documented]) (by decide) .nil))
  · exact .letter (e := (85, ascii "unparsable", fun o => { o with action := .unparsable }))
      (by simp [documented]) (by decide)
      (.letter (e := (99, ascii "crex", fun o => { o with crex := true })) (by simp [documented])
      (by decide) .stop)

/-- C99 does not hold: `-p` takes no codes, and what follows is a file. -/
theorem C99_not_print :
    Wrep.main printerMachine [ascii "--print", ascii "B01001", ascii "a"] =
      .ended (ascii "a:1:\t11\n", 0) ∧
    Wrep.main printerMachine [ascii "-p", ascii "B01001", ascii "a"] =
      .ended (ascii "a:1:\n", 0) ∧
    (Wrep.getopt none [ascii "-p", ascii "B01001", ascii "a"]).2 = [ascii "B01001", ascii "a"] := by
  decide +kernel

/-- C99 does not hold: `-h` alone is refused, and with anything after it that is lost. -/
theorem C99_not_help :
    Wrep.main printerMachine [ascii "--help"] = .ended (ascii "help", 0) ∧
    Wrep.main printerMachine [ascii "-h"] = .ended ([], 1) ∧
    Wrep.main printerMachine [ascii "-h", ascii "-U"] = .ended (ascii "help", 0) := by
  decide +kernel

/-- C99 does not hold: a code that is too short ends the list without a word, and one that
is not a code ends the program with an exception that nobody catches. -/
theorem C99_not_refused :
    Wrep.main printerMachine [ascii "--print=B01001,B1210", ascii "a"] =
      Wrep.main printerMachine [ascii "--print=B01001", ascii "a"] ∧
    Wrep.main printerMachine [ascii "--print=B01001,B1210x", ascii "a"] = .aborted := by
  decide +kernel

end Wreport
