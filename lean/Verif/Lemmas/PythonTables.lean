import Verif.Spec.PythonTables
import Verif.Props.Process
import Verif.Props.Python

/-! # Tables from Python: lemmas -/

namespace Wreport

open Spec Tabledir Process

/-! ## Errors of loading -/

theorem bind_err {α β : Type} {r : Res α} {f : α → Res β} {e : Err} (h : (r >>= f) = .err e) :
    r = .err e ∨ ∃ a, r = .ok a ∧ f a = .err e := by
  cases r with
  | ok a => exact .inr ⟨a, rfl, h⟩
  | err x =>
    left
    change (Res.err x : Res β) = _ at h
    cases h
    rfl
  | ub => cases h

theorem decode_decimal_noerr {E : Env} {info : Varinfo} {v : Int} {e : Err} :
    info.decode_decimal E v ≠ .err e := by
  unfold Varinfo.decode_decimal scales
  split_ifs <;> intro h <;> cases h

theorem compute_range_noerr {E : Env} {info : Varinfo} {e : Err} : info.compute_range E ≠ .err e := by
  have hs : ∀ i e, E.sint i ≠ .err e := by
    intro i e h
    unfold Env.sint at h
    split_ifs at h <;> cases h
  have hi : ∀ e, info.intRange E ≠ .err e := by
    intro e h
    unfold Varinfo.intRange at h
    split_ifs at h with h1 h2
    · rcases bind_err h with h | ⟨a, -, h⟩
      · unfold intexp10 at h; rw [if_pos (by omega)] at h; cases h
      · cases h
    · rcases bind_err h with h | ⟨a, -, h⟩
      · unfold Varinfo.bitMax at h
        rcases bind_err h with h | ⟨a, -, h⟩
        · unfold shl1 at h; split_ifs at h <;> cases h
        · rcases bind_err h with h | ⟨a, -, h⟩
          · exact hs _ _ h
          · split_ifs at h
            exact hs _ _ h
      · rcases bind_err h with h | ⟨a, -, h⟩
        · unfold intexp10 at h; rw [if_pos (by omega)] at h; cases h
        · cases h
  intro h
  unfold Varinfo.compute_range at h
  split at h
  · cases h
  · cases h
  all_goals
    rcases bind_err h with h | ⟨a, -, h⟩
    · exact hi _ h
    rcases bind_err h with h | ⟨a, -, h⟩
    · exact decode_decimal_noerr h
    rcases bind_err h with h | ⟨a, -, h⟩
    · exact decode_decimal_noerr h
    · cases h

theorem foldlM_err {α β : Type} {f : α → β → Res α} {e0 : Err}
    (hf : ∀ a b e, f a b = .err e → e = e0) (l : List β) (a : α) (e : Err)
    (h : l.foldlM f a = .err e) : e = e0 := by
  induction l generalizing a with
  | nil => cases h
  | cons b l ih =>
    rw [List.foldlM_cons] at h
    rcases bind_err h with h | ⟨x, -, h⟩
    · exact hf _ _ _ h
    · exact ih _ h

theorem lineCode_noerr {l : List Byte} {e : Err} : lineCode l ≠ .err e := by
  unfold lineCode
  split
  · split_ifs <;> intro h <;> cases h
  · intro h; cases h

theorem readUnit_noerr {l : List Byte} {n : Nat} {e : Err} : readUnit l n ≠ .err e := by
  unfold readUnit
  simp only
  split_ifs <;> intro h <;> cases h

theorem getnumber_noerr {l : List Byte} {e : Err} : getnumber l ≠ .err e := by
  unfold getnumber
  split
  · intro h; cases h
  · split_ifs <;> intro h <;> cases h

theorem obtain_err {t : Vartable} {i : Varinfo} {e : Err} (h : t.obtain i = .err e) : e = .parse := by
  unfold Vartable.obtain at h
  split at h
  · split_ifs at h; cases h; rfl
  · cases h

theorem load_bufr_err {E : Env} {data : List Byte} {e : Err} (h : Vartable.load_bufr E data = .err e) :
    e = .parse := by
  refine foldlM_err ?_ _ _ _ h
  intro t line e h
  unfold Vartable.addBufrLine at h
  split_ifs at h
  · cases h; rfl
  rcases bind_err h with h | ⟨c, -, h⟩
  · exact absurd h lineCode_noerr
  rcases bind_err h with h | ⟨_, -, h⟩
  · exact obtain_err h
  rcases bind_err h with h | ⟨i, -, h⟩
  · unfold bufrEntry at h
    rcases bind_err h with h | ⟨_, -, h⟩
    · exact absurd h readUnit_noerr
    rcases bind_err h with h | ⟨_, -, h⟩
    · exact absurd h getnumber_noerr
    rcases bind_err h with h | ⟨_, -, h⟩
    · exact absurd h getnumber_noerr
    rcases bind_err h with h | ⟨_, -, h⟩
    · exact absurd h getnumber_noerr
    unfold bufrInfo at h
    split_ifs at h <;> exact absurd h compute_range_noerr
  · exact obtain_err h

theorem load_crex_err {E : Env} {data : List Byte} {e : Err} (h : Vartable.load_crex E data = .err e) :
    e = .parse := by
  refine foldlM_err ?_ _ _ _ h
  intro t line e h
  unfold Vartable.addCrexLine at h
  rcases bind_err h with h | ⟨c, -, h⟩
  · exact absurd h lineCode_noerr
  split at h
  · split at h
    · cases h; rfl
    · cases h
  rcases bind_err h with h | ⟨_, -, h⟩
  · exact obtain_err h
  rcases bind_err h with h | ⟨i, -, h⟩
  · unfold crexEntry at h
    rcases bind_err h with h | ⟨_, -, h⟩
    · exact absurd h readUnit_noerr
    rcases bind_err h with h | ⟨_, -, h⟩
    · exact absurd h getnumber_noerr
    rcases bind_err h with h | ⟨_, -, h⟩
    · exact absurd h getnumber_noerr
    exact absurd h compute_range_noerr
  · exact obtain_err h

/-! ## Processes -/

theorem Tabledirs.find_good {names : List Byte → List (List Byte)} {t : Tabledirs}
    (h : t.Good names) (n : List Byte) :
    (t.find names n).1 = (t.tables names).find? (fun f => f.btable_id = n) ∧ (t.find names n).2.Good names ∧
    (t.find names n).2.dirs = t.dirs := by
  obtain ⟨h1, h2⟩ := Tabledirs.getIndex_good h
  refine ⟨?_, ?_, rfl⟩
  · unfold Tabledir.Tabledirs.find Index.find Tabledir.Tabledirs.tables
    rw [h1, ← List.flatMap_def]
  · intro x hx
    cases hx
    exact ⟨h1, h2⟩

theorem vartableBufr_inv {S : System} {p : Process} (h : p.Inv S) (k : List Byte) :
    (p.vartableBufr S k).1.Inv S :=
  ⟨h.dirs, (loadOnce_near Grown.bufr h.bufr_b k).1, h.crex_b, h.bufr_d, h.crex_d⟩

theorem vartableCrex_inv {S : System} {p : Process} (h : p.Inv S) (k : List Byte) :
    (p.vartableCrex S k).1.Inv S :=
  ⟨h.dirs, h.bufr_b, (loadOnce_near Grown.crex h.crex_b k).1, h.bufr_d, h.crex_d⟩

theorem Process.Inv.withDirs {S : System} {p : Process} (h : p.Inv S) {d : Tabledirs} (hd : d.Good S.names) :
    ({ p with dirs := d } : Process).Inv S := ⟨hd, h.bufr_b, h.crex_b, h.bufr_d, h.crex_d⟩

theorem getBufr_inv {S : System} {p : Process} (h : p.Inv S) (id : BufrTableID) : (p.getBufr S id).1.Inv S := by
  have hd := h.withDirs (Tabledirs.find_bufr_good h.dirs id).2
  unfold Process.getBufr
  simp only
  split
  · exact hd
  · exact vartableBufr_inv hd _

theorem getCrex_inv {S : System} {p : Process} (h : p.Inv S) (id : CrexTableID) : (p.getCrex S id).1.Inv S := by
  have hd := h.withDirs (Tabledirs.find_crex_good h.dirs id).2
  unfold Process.getCrex
  simp only
  split
  · exact hd
  · exact vartableCrex_inv hd _

theorem nameBufr_inv {S : System} {p : Process} (h : p.Inv S) (n : List Byte) : (p.nameBufr S n).1.Inv S := by
  have hd := h.withDirs (Tabledirs.find_good h.dirs n).2.1
  unfold Process.nameBufr
  simp only
  split
  · exact hd
  · exact vartableBufr_inv hd _

theorem nameCrex_inv {S : System} {p : Process} (h : p.Inv S) (n : List Byte) : (p.nameCrex S n).1.Inv S := by
  have hd := h.withDirs (Tabledirs.find_good h.dirs n).2.1
  unfold Process.nameCrex
  simp only
  split
  · exact hd
  · exact vartableCrex_inv hd _

theorem tableStep_inv {S : System} {p : Process} (h : p.Inv S) (op : TableOp) (hq : op.InRange) :
    (p.tableStep S op).Inv S := by
  cases op with
  | lib op => exact step_inv h op hq
  | getBufr a =>
    simp only [tableStep, Py.get_bufr]
    split
    · exact h
    · exact nameBufr_inv h _
    · exact getBufr_inv h _
  | getCrex a =>
    simp only [tableStep, Py.get_crex]
    split
    · exact h
    · exact nameCrex_inv h _
    · exact getCrex_inv h _
  | loadBufr k =>
    simp only [tableStep, Py.load_bufr]
    split
    · exact h
    · exact vartableBufr_inv h _
  | loadCrex k =>
    simp only [tableStep, Py.load_crex]
    split
    · exact h
    · exact vartableCrex_inv h _

theorem afterTables_inv (S : System) (ops : List TableOp) (hq : ∀ op ∈ ops, op.InRange) :
    (afterTables S ops).Inv S := by
  unfold afterTables
  have : ∀ (ops : List TableOp) (p : Process), (∀ op ∈ ops, op.InRange) → p.Inv S →
      (ops.foldl (fun p op => p.tableStep S op) p).Inv S := by
    intro ops
    induction ops with
    | nil => exact fun _ _ h => h
    | cons op ops ih =>
      exact fun p hq h => ih _ (fun o ho => hq o (List.mem_cons_of_mem _ ho))
        (tableStep_inv h op (hq op List.mem_cons_self))
  exact this ops _ hq (fresh_inv S [])

/-! ## Answers -/

theorem loadOnce_answer {E : Env} {files : List Byte → Option (List Byte)} {parse : List Byte → Res Vartable}
    (hp : ∀ data e, parse data = .err e → e = .parse)
    (hQ : ∀ data t, parse data = .ok t → Grown E t t) {m : List (List Byte × Vartable)}
    (h : Loaded files parse (Grown E) m) {C : Table → Prop} {f : Table} (hC : C f) :
    TableAnswer E files parse C (Py.caught none
      (do let t ← (loadOnce files parse m f.btable_pathname).2; return (f.btable_pathname, t))).done := by
  unfold loadOnce
  cases hm : m.lookup f.btable_pathname with
  | some t =>
    obtain ⟨data, t0, h1, h2, h3⟩ := h _ _ hm
    exact ⟨f, data, t0, hC, rfl, h1, h2, Grown.same h3⟩
  | none =>
    simp only
    cases hf : files f.btable_pathname with
    | none => exact ⟨f, hC, hf⟩
    | some data =>
      simp only
      cases hl : parse data with
      | ok t => exact ⟨f, data, t, hC, rfl, hf, hl, Grown.same (hQ data t hl)⟩
      | err e =>
        obtain rfl := hp _ _ hl
        exact ⟨f, data, hC, hf, hl⟩
      | ub => exact ⟨f, data, hC, hf, hl⟩

theorem getBufr_answer {S : System} {p : Process} (h : p.Inv S) (id : BufrTableID) :
    TableAnswer S.E S.files (Vartable.load_bufr S.E)
      (IsBest (UsableB id) (CloserB id) (p.dirs.tables S.names)) (Py.caught none (p.getBufr S id).2).done := by
  unfold Process.getBufr
  simp only
  cases hr : (p.dirs.find_bufr S.names id).1 with
  | none =>
    have := (bufrQuery_best id (p.dirs.dirs.map fun d => Dir.tables d (S.names d))).1
    rw [← (Tabledirs.find_bufr_good h.dirs id).1, ← List.flatMap_def] at this
    exact fun f hf => this.mp hr f hf.1 hf.2.1
  | some f =>
    exact loadOnce_answer (fun _ _ => load_bufr_err) Grown.bufr h.bufr_b (find_bufr_best h.dirs id f hr)

theorem getCrex_answer {S : System} {p : Process} (h : p.Inv S) (id : CrexTableID) :
    TableAnswer S.E S.files (Vartable.load_crex S.E)
      (IsBest (UsableC id) (CloserC id) (p.dirs.tables S.names)) (Py.caught none (p.getCrex S id).2).done := by
  unfold Process.getCrex
  simp only
  cases hr : (p.dirs.find_crex S.names id).1 with
  | none =>
    have := (crexQuery_best id (p.dirs.dirs.map fun d => Dir.tables d (S.names d))).1
    rw [← (Tabledirs.find_crex_good h.dirs id).1, ← List.flatMap_def] at this
    exact fun f hf => this.mp hr f hf.1 hf.2.1
  | some f =>
    exact loadOnce_answer (fun _ _ => load_crex_err) Grown.crex h.crex_b (find_crex_best h.dirs id f hr)

theorem find_named {tables : List Table} {n : List Byte} :
    (tables.find? (fun f => f.btable_id = n) = none → ∀ f, ¬ FirstNamed tables n f) ∧
    ∀ f, tables.find? (fun f => f.btable_id = n) = some f → FirstNamed tables n f := by
  constructor
  · rintro h f ⟨pre, post, rfl, h1, -⟩
    rw [List.find?_eq_none] at h
    exact h f (by simp) (by simp [h1])
  · intro f h
    obtain ⟨h1, pre, post, rfl, h2⟩ := List.find?_eq_some_iff_append.mp h
    exact ⟨pre, post, rfl, of_decide_eq_true h1, fun u hu => by simpa using h2 u hu⟩

theorem nameBufr_answer {S : System} {p : Process} (h : p.Inv S) (n : List Byte) :
    TableAnswer S.E S.files (Vartable.load_bufr S.E)
      (FirstNamed (p.dirs.tables S.names) n) (Py.caught none (p.nameBufr S n).2).done := by
  have hf := (Tabledirs.find_good h.dirs n).1
  unfold Process.nameBufr
  simp only
  cases hr : (p.dirs.find S.names n).1 with
  | none => rw [hf] at hr; exact find_named.1 hr
  | some f =>
    refine loadOnce_answer (fun _ _ => load_bufr_err) Grown.bufr h.bufr_b (find_named.2 f ?_)
    rw [← hf, hr]

theorem nameCrex_answer {S : System} {p : Process} (h : p.Inv S) (n : List Byte) :
    TableAnswer S.E S.files (Vartable.load_crex S.E)
      (FirstNamed (p.dirs.tables S.names) n) (Py.caught none (p.nameCrex S n).2).done := by
  have hf := (Tabledirs.find_good h.dirs n).1
  unfold Process.nameCrex
  simp only
  cases hr : (p.dirs.find S.names n).1 with
  | none => rw [hf] at hr; exact find_named.1 hr
  | some f =>
    refine loadOnce_answer (fun _ _ => load_crex_err) Grown.crex h.crex_b (find_named.2 f ?_)
    rw [← hf, hr]

/-! ## Arguments -/

theorem optInt_num {o : Option Py.Obj} {d n : Int} (h : Num o d n) (hn : inInt n = true) :
    Py.optInt d o = .ok n := by
  rcases h with ⟨rfl, rfl⟩ | rfl
  · rfl
  · simp only [Py.optInt, Py.argInt, if_pos hn]

theorem inInt_of {n : Nat} (h : n < 65536) : inInt (n : Int) = true := by
  simp only [inInt, Bool.and_eq_true, decide_eq_true_eq]
  omega

theorem toU8_toNat (x : UInt8) : toU8 (x.toNat : Int) = x := by
  have := x.toNat_lt
  unfold toU8
  rw [show ((x.toNat : Int) % 256).toNat = x.toNat by omega, UInt8.ofNat_toNat]

theorem toU16_toNat (x : UInt16) : toU16 (x.toNat : Int) = x := by
  have := x.toNat_lt
  unfold toU16
  rw [show ((x.toNat : Int) % 65536).toNat = x.toNat by omega, UInt16.ofNat_toNat]

theorem inInt_u8 (x : UInt8) : inInt (x.toNat : Int) = true := inInt_of (by have := x.toNat_lt; omega)
theorem inInt_u16 (x : UInt16) : inInt (x.toNat : Int) = true := inInt_of (by have := x.toNat_lt; omega)

theorem bufrAsk_asked {a : Py.BufrArgs} {id : BufrTableID} (h : BufrAsked a id) :
    Py.bufrAsk a = .ok (.inr id) := by
  unfold Py.bufrAsk
  rw [h.basename, optInt_num h.centre (inInt_u16 _), optInt_num h.subcentre (inInt_u16 _),
    optInt_num h.table (inInt_u8 _), optInt_num (.inr h.version) (inInt_u8 _),
    optInt_num h.version_local (inInt_u8 _)]
  have hn : ¬ ((id.master_table_version_number.toNat : Int) = -1) := by omega
  simp only [Py.optText, bind, Except.bind, pure, Except.pure, if_neg hn, toU8_toNat, toU16_toNat]

theorem crexAsk_asked {a : Py.CrexArgs} {id : CrexTableID} (h : CrexAsked a id) :
    Py.crexAsk a = .ok (.inr id) := by
  unfold Py.crexAsk
  rw [h.basename, optInt_num h.edition (inInt_u8 _), optInt_num h.centre (inInt_u16 _),
    optInt_num h.subcentre (inInt_u16 _),
    optInt_num h.table (inInt_u8 _), optInt_num (.inr h.version) (inInt_u8 _),
    optInt_num (.inr h.version_bufr) (inInt_u8 _), optInt_num h.version_local (inInt_u8 _)]
  have hn : ¬ ((id.master_table_version_number.toNat : Int) = -1) := by omega
  have hb : ¬ ((id.master_table_version_number_bufr.toNat : Int) = -1) := by omega
  simp only [Py.optText, bind, Except.bind, pure, Except.pure, if_neg hn, if_neg hb,
    if_neg (fun h : (id.master_table_version_number.toNat : Int) = -1 ∧ _ => hn h.1), toU8_toNat, toU16_toNat]

end Wreport
