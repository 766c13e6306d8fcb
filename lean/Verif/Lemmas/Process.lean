import Verif.Spec.Process
import Verif.Lemmas.Alike
import Verif.Props.Tabledir

/-! # Lemmas on loading of tables -/

namespace Wreport

open Tabledir Spec

/-- What a map holds was read from a file, and may have changed in a way `Q` allows. -/
def Loaded {α : Type} (files : List Byte → Option (List Byte)) (parse : List Byte → Res α)
    (Q : α → α → Prop) (m : List (List Byte × α)) : Prop :=
  ∀ k t, m.lookup k = some t → ∃ data t0, files k = some data ∧ parse data = .ok t0 ∧ Q t0 t

/-- Results that are the same up to `Q`. -/
def Near {α : Type} (Q : α → α → Prop) (r r' : Res α) : Prop :=
  match r with
  | .ok t0 => ∃ t, r' = .ok t ∧ Q t0 t
  | .err e => r' = .err e
  | .ub => r' = .ub

theorem loadOnce_near {α : Type} {files : List Byte → Option (List Byte)}
    {parse : List Byte → Res α} {Q : α → α → Prop} (hQ : ∀ data t, parse data = .ok t → Q t t)
    {m : List (List Byte × α)} (h : Loaded files parse Q m) (k : List Byte) :
    Loaded files parse Q (loadOnce files parse m k).1 ∧
    Near Q (loadOnce files parse [] k).2 (loadOnce files parse m k).2 := by
  unfold loadOnce
  simp only [List.lookup_nil]
  cases hm : m.lookup k with
  | some t =>
    obtain ⟨data, t0, h1, h2, h3⟩ := h k t hm
    refine ⟨h, ?_⟩
    simp only [h1, h2]
    exact ⟨t, rfl, h3⟩
  | none =>
    cases hf : files k with
    | none => exact ⟨h, rfl⟩
    | some data =>
      simp only
      cases hp : parse data with
      | err e => exact ⟨h, rfl⟩
      | ub => exact ⟨h, rfl⟩
      | ok t =>
        refine ⟨?_, t, rfl, hQ _ _ hp⟩
        intro k' t' hl
        simp only [List.lookup_cons] at hl
        cases hk : k' == k with
        | true =>
          simp only [hk, Option.some.injEq] at hl
          subst hl
          rw [beq_iff_eq.mp hk]
          exact ⟨data, t, hf, hp, hQ _ _ hp⟩
        | false =>
          simp only [hk] at hl
          exact h k' t' hl

/-- Element tables: only alterations have been added. -/
def Grown (E : Env) (t0 t : Vartable) : Prop := t0.Ext t ∧ t0.Inv E ∧ t.Inv E

theorem Grown.bufr {E : Env} (data : List Byte) (t : Vartable)
    (h : Vartable.load_bufr E data = .ok t) : Grown E t t :=
  have hi := (Vartable.Reachable.bufr data t h).inv
  ⟨.refl t, hi, hi⟩

theorem Grown.crex {E : Env} (data : List Byte) (t : Vartable)
    (h : Vartable.load_crex E data = .ok t) : Grown E t t :=
  have hi := (Vartable.Reachable.crex data t h).inv
  ⟨.refl t, hi, hi⟩

theorem lookup_change {α : Type} (f : α → α) (key k : List Byte) (m : List (List Byte × α)) :
    (Process.change f key m).lookup k =
      (m.lookup k).map fun t => if k = key then f t else t := by
  induction m with
  | nil => rfl
  | cons e m ih =>
    unfold Process.change at ih ⊢
    obtain ⟨a, t⟩ := e
    rw [List.map_cons]
    by_cases hk : k = a
    · subst hk
      by_cases hkey : k = key <;> simp [hkey]
    · have hb : (k == a) = false := by simpa using hk
      by_cases hkey : a = key
      · subst hkey
        simp only [if_true, List.lookup_cons, hb]
        exact ih
      · simp only [hkey, if_false, List.lookup_cons, hb]
        exact ih

theorem Loaded.change {E : Env} {files : List Byte → Option (List Byte)}
    {parse : List Byte → Res Vartable} {m : List (List Byte × Vartable)}
    (h : Loaded files parse (Grown E) m) (key : List Byte) (q : Request)
    (hq : inInt q.bit_ref = true) :
    Loaded files parse (Grown E) (Process.change
      (fun t => (t.query_altered E q.code q.scale q.bit_len q.bit_ref).1) key m) := by
  intro k t hl
  rw [lookup_change] at hl
  obtain ⟨t1, h1, h2⟩ := Option.map_eq_some_iff.mp hl
  obtain ⟨data, t0, h3, h4, h5, h6, h7⟩ := h k t1 h1
  refine ⟨data, t0, h3, h4, ?_⟩
  split at h2
  · subst h2
    exact ⟨h5.trans (Vartable.query_altered_ext E t1 _ _ _ _), h6,
      Vartable.query_altered_inv h7 _ _ _ _ hq⟩
  · subst h2
    exact ⟨h5, h6, h7⟩

/-- What holds of a process while files and directories stay as they are. -/
structure Process.Inv (S : System) (p : Process) : Prop where
  dirs : p.dirs.Good S.names
  bufr_b : Loaded S.files (Vartable.load_bufr S.E) (Grown S.E) p.bufr_b
  crex_b : Loaded S.files (Vartable.load_crex S.E) (Grown S.E) p.crex_b
  bufr_d : Loaded S.files DTable.load Eq p.bufr_d
  crex_d : Loaded S.files DTable.load Eq p.crex_d

theorem Loaded.nil {α : Type} (files : List Byte → Option (List Byte)) (parse : List Byte → Res α)
    (Q : α → α → Prop) : Loaded files parse Q [] := by
  intro k t h
  cases h

namespace Process

theorem fresh_inv (S : System) (dirs : List (List Byte)) : (fresh dirs).Inv S :=
  ⟨(by intro x hx; cases hx), Loaded.nil _ _ _, Loaded.nil _ _ _, Loaded.nil _ _ _, Loaded.nil _ _ _⟩

/-- Contexts that answer alike. -/
def NearCtx (a b : Ctx × TableCaches) : Prop := a.1.Alike b.1 ∧ b.2 = a.2

theorem setBufr_near {S : System} {p p0 : Process} (h : p.Inv S) (h0 : p0.bufr_b = [])
    (h0' : p0.bufr_d = []) (O : Opts) (t : Tables) (f : Table) :
    (p.setBufr S t f).1.Inv S ∧
    Near NearCtx (context S O (p0.setBufr S t f)) (context S O (p.setBufr S t f)) := by
  obtain ⟨hb, nb⟩ := loadOnce_near Grown.bufr h.bufr_b f.btable_pathname
  obtain ⟨hd, nd⟩ := loadOnce_near (Q := Eq) (fun _ _ _ => rfl) h.bufr_d f.dtable_pathname
  unfold setBufr
  simp only [h0, h0']
  cases e0 : (loadOnce S.files (Vartable.load_bufr S.E) [] f.btable_pathname).2 with
  | err e =>
    rw [e0] at nb
    simp only [Near] at nb
    rw [nb]
    exact ⟨⟨h.dirs, hb, h.crex_b, h.bufr_d, h.crex_d⟩, rfl⟩
  | ub =>
    rw [e0] at nb
    simp only [Near] at nb
    rw [nb]
    exact ⟨⟨h.dirs, hb, h.crex_b, h.bufr_d, h.crex_d⟩, rfl⟩
  | ok t0 =>
    rw [e0] at nb
    obtain ⟨t1, e1, g1, g2, g3⟩ := nb
    rw [e1]
    simp only
    cases d0 : (loadOnce S.files DTable.load [] f.dtable_pathname).2 with
    | err e =>
      rw [d0] at nd
      simp only [Near] at nd
      rw [nd]
      exact ⟨⟨h.dirs, hb, h.crex_b, hd, h.crex_d⟩, rfl⟩
    | ub =>
      rw [d0] at nd
      simp only [Near] at nd
      rw [nd]
      exact ⟨⟨h.dirs, hb, h.crex_b, hd, h.crex_d⟩, rfl⟩
    | ok dt =>
      rw [d0] at nd
      obtain ⟨d1, e2, e3⟩ := nd
      subst e3
      rw [e2]
      refine ⟨⟨h.dirs, hb, h.crex_b, hd, h.crex_d⟩, ?_⟩
      exact ⟨_, rfl, Ctx.alike_of_ext rfl rfl rfl g1 g2 g3, rfl⟩

theorem setCrex_near {S : System} {p p0 : Process} (h : p.Inv S) (h0 : p0.crex_b = [])
    (h0' : p0.crex_d = []) (O : Opts) (t : Tables) (f : Table) :
    (p.setCrex S t f).1.Inv S ∧
    Near NearCtx (context S O (p0.setCrex S t f)) (context S O (p.setCrex S t f)) := by
  obtain ⟨hb, nb⟩ := loadOnce_near Grown.crex h.crex_b f.btable_pathname
  obtain ⟨hd, nd⟩ := loadOnce_near (Q := Eq) (fun _ _ _ => rfl) h.crex_d f.dtable_pathname
  unfold setCrex
  simp only [h0, h0']
  cases e0 : (loadOnce S.files (Vartable.load_crex S.E) [] f.btable_pathname).2 with
  | err e =>
    rw [e0] at nb
    simp only [Near] at nb
    rw [nb]
    exact ⟨⟨h.dirs, h.bufr_b, hb, h.bufr_d, h.crex_d⟩, rfl⟩
  | ub =>
    rw [e0] at nb
    simp only [Near] at nb
    rw [nb]
    exact ⟨⟨h.dirs, h.bufr_b, hb, h.bufr_d, h.crex_d⟩, rfl⟩
  | ok t0 =>
    rw [e0] at nb
    obtain ⟨t1, e1, g1, g2, g3⟩ := nb
    rw [e1]
    simp only
    cases d0 : (loadOnce S.files DTable.load [] f.dtable_pathname).2 with
    | err e =>
      rw [d0] at nd
      simp only [Near] at nd
      rw [nd]
      exact ⟨⟨h.dirs, h.bufr_b, hb, h.bufr_d, hd⟩, rfl⟩
    | ub =>
      rw [d0] at nd
      simp only [Near] at nd
      rw [nd]
      exact ⟨⟨h.dirs, h.bufr_b, hb, h.bufr_d, hd⟩, rfl⟩
    | ok dt =>
      rw [d0] at nd
      obtain ⟨d1, e2, e3⟩ := nd
      subst e3
      rw [e2]
      refine ⟨⟨h.dirs, h.bufr_b, hb, h.bufr_d, hd⟩, ?_⟩
      exact ⟨_, rfl, Ctx.alike_of_ext rfl rfl rfl g1 g2 g3, rfl⟩

theorem load_bufr_near {S : System} {p : Process} (h : p.Inv S) (O : Opts) (t : Tables)
    (id : BufrTableID) :
    (p.load_bufr S t id).1.Inv S ∧
    Near NearCtx (context S O ((fresh p.dirs.dirs).load_bufr S t id))
      (context S O (p.load_bufr S t id)) := by
  obtain ⟨h1, h2⟩ := Tabledirs.find_bufr_good h.dirs id
  obtain ⟨h3, -⟩ := Tabledirs.find_bufr_good (fresh_inv S p.dirs.dirs).dirs id
  unfold load_bufr
  simp only
  rw [h3, h1]
  change _ ∧ Near NearCtx (context S O (match (BufrQuery id).run
    (p.dirs.dirs.map fun d => Dir.tables d (S.names d)) with | none => _ | some f => _)) _
  have hi : ({ p with dirs := (p.dirs.find_bufr S.names id).2 } : Process).Inv S :=
    ⟨h2, h.bufr_b, h.crex_b, h.bufr_d, h.crex_d⟩
  cases (BufrQuery id).run (p.dirs.dirs.map fun d => Dir.tables d (S.names d)) with
  | none => exact ⟨hi, rfl⟩
  | some f => exact setBufr_near hi rfl rfl O t f

theorem load_crex_near {S : System} {p : Process} (h : p.Inv S) (O : Opts) (t : Tables)
    (id : CrexTableID) :
    (p.load_crex S t id).1.Inv S ∧
    Near NearCtx (context S O ((fresh p.dirs.dirs).load_crex S t id))
      (context S O (p.load_crex S t id)) := by
  obtain ⟨h1, h2⟩ := Tabledirs.find_crex_good h.dirs id
  obtain ⟨h3, -⟩ := Tabledirs.find_crex_good (fresh_inv S p.dirs.dirs).dirs id
  unfold load_crex
  simp only
  rw [h3, h1]
  change _ ∧ Near NearCtx (context S O (match (CrexQuery id).run
    (p.dirs.dirs.map fun d => Dir.tables d (S.names d)) with | none => _ | some f => _)) _
  have hi : ({ p with dirs := (p.dirs.find_crex S.names id).2 } : Process).Inv S :=
    ⟨h2, h.bufr_b, h.crex_b, h.bufr_d, h.crex_d⟩
  cases (CrexQuery id).run (p.dirs.dirs.map fun d => Dir.tables d (S.names d)) with
  | none => exact ⟨hi, rfl⟩
  | some f => exact setCrex_near hi rfl rfl O t f

theorem decodeMessage_near {load load' : Header → Res (Ctx × TableCaches)}
    (h : ∀ hd, Near NearCtx (load hd) (load' hd)) (add_undef : Bool) (depth : Nat)
    (data : List Byte) :
    decodeMessage load' add_undef depth data = decodeMessage load add_undef depth data := by
  unfold decodeMessage BufrDec.decode
  congr 1
  funext hd
  have hn := h hd.header
  cases hl : load hd.header with
  | err e => rw [hl] at hn; simp only [Near] at hn; rw [hn]
  | ub => rw [hl] at hn; simp only [Near] at hn; rw [hn]
  | ok a =>
    rw [hl] at hn
    obtain ⟨⟨D, c⟩, hb, h1, h2⟩ := hn
    obtain ⟨C, c0⟩ := a
    simp only at h1 h2
    subst h2
    rw [hb]
    simp only [Res.ok_bind, decodeBody_alike h1]

theorem decode_near {load load' : Crex.Header → Res (Ctx × TableCaches)}
    (h : ∀ hd, Near NearCtx (load hd) (load' hd)) (depth fuel : Nat)
    (data : List Byte) :
    Crex.Decoder.decode load' depth fuel data = Crex.Decoder.decode load depth fuel data := by
  unfold Crex.Decoder.decode
  rcases Crex.Decoder.decode_header fuel data with - | (⟨i, hd⟩ | e | -)
  · rfl
  · simp only
    have hn := h hd
    cases hl : load hd with
    | err e => rw [hl] at hn; simp only [Near] at hn; rw [hn]
    | ub => rw [hl] at hn; simp only [Near] at hn; rw [hn]
    | ok a =>
      rw [hl] at hn
      obtain ⟨⟨D, c⟩, hb, h1, h2⟩ := hn
      obtain ⟨C, c0⟩ := a
      simp only at h1 h2
      subst h2
      rw [hb]
      simp only [Crex.Decoder.decode_data_alike h1]
  · rfl
  · rfl

theorem decodeBufr_near {S : System} {p : Process} (h : p.Inv S) (O : Opts) (add_undef : Bool)
    (depth : Nat) (data : List Byte) :
    (p.decodeBufr S O add_undef depth data).1.Inv S ∧
    (p.decodeBufr S O add_undef depth data).2 =
      ((fresh p.dirs.dirs).decodeBufr S O add_undef depth data).2 := by
  refine ⟨?_, decodeMessage_near (fun hd => (load_bufr_near h O .new _).2) _ _ _⟩
  unfold decodeBufr
  cases BufrDec.decode_header data with
  | ok hd => exact (load_bufr_near h O .new _).1
  | err e => exact h
  | ub => exact h

theorem decodeCrex_near {S : System} {p : Process} (h : p.Inv S) (O : Opts) (depth fuel : Nat)
    (data : List Byte) :
    (p.decodeCrex S O depth fuel data).1.Inv S ∧
    (p.decodeCrex S O depth fuel data).2 =
      ((fresh p.dirs.dirs).decodeCrex S O depth fuel data).2 := by
  refine ⟨?_, decode_near (fun hd => (load_crex_near h O .new _).2) _ _ _⟩
  unfold decodeCrex
  rcases Crex.Decoder.decode_header fuel data with - | (⟨i, hd⟩ | e | -)
  · exact h
  · exact (load_crex_near h O .new _).1
  · exact h
  · exact h

theorem step_inv {S : System} {p : Process} (h : p.Inv S) (op : ProcessOp) (hq : op.InRange) :
    (p.step S op).Inv S := by
  cases op with
  | add dir =>
    refine ⟨?_, h.bufr_b, h.crex_b, h.bufr_d, h.crex_d⟩
    simp only [step, Tabledirs.add_directory]
    split
    · exact h.dirs
    · intro x hx; cases hx
  | bufr O a d data => exact (decodeBufr_near h O a d data).1
  | crex O d f data => exact (decodeCrex_near h O d f data).1
  | alterBufr k q => exact ⟨h.dirs, h.bufr_b.change k q hq, h.crex_b, h.bufr_d, h.crex_d⟩
  | alterCrex k q => exact ⟨h.dirs, h.bufr_b, h.crex_b.change k q hq, h.bufr_d, h.crex_d⟩

/-! ## Directories -/

theorem setBufr_dirs (S : System) (p : Process) (t : Tables) (f : Table) :
    (p.setBufr S t f).1.dirs = p.dirs := by
  unfold setBufr
  simp only
  split
  · rfl
  · rfl
  · split <;> rfl

theorem setCrex_dirs (S : System) (p : Process) (t : Tables) (f : Table) :
    (p.setCrex S t f).1.dirs = p.dirs := by
  unfold setCrex
  simp only
  split
  · rfl
  · rfl
  · split <;> rfl

theorem load_bufr_dirs (S : System) (p : Process) (t : Tables) (id : BufrTableID) :
    (p.load_bufr S t id).1.dirs.dirs = p.dirs.dirs := by
  unfold load_bufr
  simp only
  split
  · rfl
  · rw [setBufr_dirs]; rfl

theorem load_crex_dirs (S : System) (p : Process) (t : Tables) (id : CrexTableID) :
    (p.load_crex S t id).1.dirs.dirs = p.dirs.dirs := by
  unfold load_crex
  simp only
  split
  · rfl
  · rw [setCrex_dirs]; rfl

/-- The directories after adding some. -/
def addAll (dirs : List (List Byte)) (ds : List (List Byte)) : List (List Byte) :=
  ds.foldl (fun l d => if Tabledirs.clean d ∈ l then l else l ++ [Tabledirs.clean d]) dirs

theorem step_dirs (S : System) (p : Process) (op : ProcessOp) :
    (p.step S op).dirs.dirs = addAll p.dirs.dirs op.adds.toList := by
  cases op with
  | add dir =>
    simp only [step, Tabledirs.add_directory, ProcessOp.adds, addAll, Option.toList, List.foldl]
    split <;> rfl
  | bufr O a d data =>
    simp only [step, decodeBufr]
    split
    · exact load_bufr_dirs _ _ _ _
    · rfl
  | crex O d f data =>
    simp only [step, decodeCrex]
    split
    · exact load_crex_dirs _ _ _ _
    · rfl
  | alterBufr k q => rfl
  | alterCrex k q => rfl

theorem foldl_dirs (S : System) (ops : List ProcessOp) (p : Process) :
    (ops.foldl (fun p op => p.step S op) p).dirs.dirs =
      addAll p.dirs.dirs (ops.filterMap ProcessOp.adds) := by
  induction ops generalizing p with
  | nil => rfl
  | cons op ops ih =>
    rw [List.foldl_cons, ih, step_dirs]
    cases h : op.adds with
    | none => rw [List.filterMap_cons_none h]; rfl
    | some d => rw [List.filterMap_cons_some h]; rfl

theorem foldl_inv (S : System) (ops : List ProcessOp) (hq : ∀ op ∈ ops, op.InRange) (p : Process)
    (h : p.Inv S) : (ops.foldl (fun p op => p.step S op) p).Inv S := by
  induction ops generalizing p with
  | nil => exact h
  | cons op ops ih =>
    exact ih (fun o ho => hq o (List.mem_cons_of_mem _ ho)) _
      (step_inv h op (hq op List.mem_cons_self))

/-! ## Changing files -/

/-- What one operation does to a map: everything stays, up to `Q`, and what is new is
what a file contains. -/
structure Moves {α : Type} (Q : α → α → Prop) (files : List Byte → Option (List Byte))
    (parse : List Byte → Res α) (m m' : List (List Byte × α)) : Prop where
  fwd : ∀ k t, m.lookup k = some t → ∃ t', m'.lookup k = some t' ∧ Q t t'
  bwd : ∀ k t', m'.lookup k = some t' → (∃ t, m.lookup k = some t ∧ Q t t') ∨
    ∃ data, files k = some data ∧ parse data = .ok t'

theorem Moves.refl {α : Type} {Q : α → α → Prop} (hQ : ∀ t, Q t t)
    (files : List Byte → Option (List Byte)) (parse : List Byte → Res α)
    (m : List (List Byte × α)) : Moves Q files parse m m :=
  ⟨fun _ t h => ⟨t, h, hQ t⟩, fun _ t h => .inl ⟨t, h, hQ t⟩⟩

theorem loadOnce_moves {α : Type} {Q : α → α → Prop} (hQ : ∀ t, Q t t)
    (files : List Byte → Option (List Byte)) (parse : List Byte → Res α)
    (m : List (List Byte × α)) (k : List Byte) :
    Moves Q files parse m (loadOnce files parse m k).1 := by
  unfold loadOnce
  cases hm : m.lookup k with
  | some t => exact .refl hQ _ _ _
  | none =>
    cases hf : files k with
    | none => exact .refl hQ _ _ _
    | some data =>
      simp only
      cases hp : parse data with
      | err e => exact .refl hQ _ _ _
      | ub => exact .refl hQ _ _ _
      | ok t =>
        refine ⟨fun k' t' h => ⟨t', ?_, hQ t'⟩, fun k' t' h => ?_⟩
        · rw [List.lookup_cons]
          cases hk : k' == k with
          | true => rw [beq_iff_eq.mp hk, hm] at h; cases h
          | false => exact h
        · rw [List.lookup_cons] at h
          cases hk : k' == k with
          | true =>
            rw [hk] at h
            cases h
            rw [beq_iff_eq.mp hk]
            exact .inr ⟨data, hf, hp⟩
          | false =>
            rw [hk] at h
            exact .inl ⟨t', h, hQ t'⟩

/-- Alterations have been added, if the table was in order. -/
def Grows (E : Env) (t t' : Vartable) : Prop := t.Inv E → Grown E t t'

theorem Grows.refl (E : Env) (t : Vartable) : Grows E t t := fun h => ⟨.refl t, h, h⟩

theorem change_moves (E : Env) (files : List Byte → Option (List Byte))
    (parse : List Byte → Res Vartable) (m : List (List Byte × Vartable)) (key : List Byte)
    (q : Request) (hq : inInt q.bit_ref = true) :
    Moves (Grows E) files parse m (change
      (fun t => (t.query_altered E q.code q.scale q.bit_len q.bit_ref).1) key m) := by
  have hg : ∀ k t, Grows E t
      (if k = key then (t.query_altered E q.code q.scale q.bit_len q.bit_ref).1 else t) := by
    intro k t hi
    split
    · exact ⟨Vartable.query_altered_ext E t _ _ _ _, hi, Vartable.query_altered_inv hi _ _ _ _ hq⟩
    · exact ⟨.refl t, hi, hi⟩
  refine ⟨fun k t h => ⟨_, by rw [lookup_change, h]; rfl, hg k t⟩, fun k t' h => ?_⟩
  rw [lookup_change] at h
  obtain ⟨t, h1, h2⟩ := Option.map_eq_some_iff.mp h
  subst h2
  exact .inl ⟨t, h1, hg k t⟩

/-- What one operation does to all the maps. -/
structure StepMoves (S : System) (p p' : Process) : Prop where
  bufr_b : Moves (Grows S.E) S.files (Vartable.load_bufr S.E) p.bufr_b p'.bufr_b
  crex_b : Moves (Grows S.E) S.files (Vartable.load_crex S.E) p.crex_b p'.crex_b
  bufr_d : Moves Eq S.files DTable.load p.bufr_d p'.bufr_d
  crex_d : Moves Eq S.files DTable.load p.crex_d p'.crex_d

theorem StepMoves.same (S : System) {p p' : Process} (h1 : p'.bufr_b = p.bufr_b)
    (h2 : p'.crex_b = p.crex_b) (h3 : p'.bufr_d = p.bufr_d) (h4 : p'.crex_d = p.crex_d) :
    StepMoves S p p' :=
  ⟨by rw [h1]; exact .refl (Grows.refl _) _ _ _, by rw [h2]; exact .refl (Grows.refl _) _ _ _,
    by rw [h3]; exact .refl (fun _ => rfl) _ _ _, by rw [h4]; exact .refl (fun _ => rfl) _ _ _⟩

theorem setBufr_moves (S : System) (p : Process) (t : Tables) (f : Table) :
    StepMoves S p (p.setBufr S t f).1 := by
  have hs := StepMoves.same S (p := p) (p' := p) rfl rfl rfl rfl
  have hb := loadOnce_moves (Grows.refl S.E) S.files (Vartable.load_bufr S.E) p.bufr_b
    f.btable_pathname
  have hd := loadOnce_moves (Q := Eq) (fun _ => rfl) S.files DTable.load p.bufr_d f.dtable_pathname
  unfold setBufr
  simp only
  split
  · exact ⟨hb, hs.crex_b, hs.bufr_d, hs.crex_d⟩
  · exact ⟨hb, hs.crex_b, hs.bufr_d, hs.crex_d⟩
  · split <;> exact ⟨hb, hs.crex_b, hd, hs.crex_d⟩

theorem setCrex_moves (S : System) (p : Process) (t : Tables) (f : Table) :
    StepMoves S p (p.setCrex S t f).1 := by
  have hs := StepMoves.same S (p := p) (p' := p) rfl rfl rfl rfl
  have hb := loadOnce_moves (Grows.refl S.E) S.files (Vartable.load_crex S.E) p.crex_b
    f.btable_pathname
  have hd := loadOnce_moves (Q := Eq) (fun _ => rfl) S.files DTable.load p.crex_d f.dtable_pathname
  unfold setCrex
  simp only
  split
  · exact ⟨hs.bufr_b, hb, hs.bufr_d, hs.crex_d⟩
  · exact ⟨hs.bufr_b, hb, hs.bufr_d, hs.crex_d⟩
  · split <;> exact ⟨hs.bufr_b, hb, hs.bufr_d, hd⟩

theorem load_bufr_moves (S : System) (p : Process) (t : Tables) (id : BufrTableID) :
    StepMoves S p (p.load_bufr S t id).1 := by
  unfold load_bufr
  simp only
  split
  · exact .same S rfl rfl rfl rfl
  · have h := setBufr_moves S { p with dirs := (p.dirs.find_bufr S.names id).2 } t
    exact ⟨(h _).bufr_b, (h _).crex_b, (h _).bufr_d, (h _).crex_d⟩

theorem load_crex_moves (S : System) (p : Process) (t : Tables) (id : CrexTableID) :
    StepMoves S p (p.load_crex S t id).1 := by
  unfold load_crex
  simp only
  split
  · exact .same S rfl rfl rfl rfl
  · have h := setCrex_moves S { p with dirs := (p.dirs.find_crex S.names id).2 } t
    exact ⟨(h _).bufr_b, (h _).crex_b, (h _).bufr_d, (h _).crex_d⟩

theorem step_moves (S : System) (p : Process) (op : ProcessOp) (hq : op.InRange) :
    StepMoves S p (p.step S op) := by
  have hs := StepMoves.same S (p := p) (p' := p) rfl rfl rfl rfl
  cases op with
  | add dir => exact .same S rfl rfl rfl rfl
  | bufr O a d data =>
    simp only [step, decodeBufr]
    split
    · exact load_bufr_moves _ _ _ _
    · exact hs
  | crex O d f data =>
    simp only [step, decodeCrex]
    split
    · exact load_crex_moves _ _ _ _
    · exact hs
  | alterBufr k q => exact ⟨change_moves _ _ _ _ _ _ hq, hs.crex_b, hs.bufr_d, hs.crex_d⟩
  | alterCrex k q => exact ⟨hs.bufr_b, change_moves _ _ _ _ _ _ hq, hs.bufr_d, hs.crex_d⟩

/-- What is held comes from some file that could be read. -/
def From {α : Type} (P : List Byte → List Byte → Prop) (parse : List Byte → Res α)
    (Q : α → α → Prop) (m : List (List Byte × α)) : Prop :=
  ∀ k t, m.lookup k = some t → ∃ data t0, P k data ∧ parse data = .ok t0 ∧ Q t0 t

theorem From.moves {α : Type} {P : List Byte → List Byte → Prop} {parse : List Byte → Res α}
    {Q R : α → α → Prop} {files : List Byte → Option (List Byte)} {m m' : List (List Byte × α)}
    (h : From P parse Q m) (hm : Moves R files parse m m')
    (hf : ∀ k data, files k = some data → P k data) (hQ : ∀ data t, parse data = .ok t → Q t t)
    (ht : ∀ a b c, Q a b → R b c → Q a c) : From P parse Q m' := by
  intro k t' hl
  rcases hm.bwd k t' hl with ⟨t, h1, h2⟩ | ⟨data, h1, h2⟩
  · obtain ⟨data, t0, h3, h4, h5⟩ := h k t h1
    exact ⟨data, t0, h3, h4, ht _ _ _ h5 h2⟩
  · exact ⟨data, t', hf k data h1, h2, hQ _ _ h2⟩

theorem Grown.grows {E : Env} (a b c : Vartable) (h : Grown E a b) (h' : Grows E b c) :
    Grown E a c :=
  have g := h' h.2.2
  ⟨h.1.trans g.1, h.2.1, g.2.2⟩

/-- What all the maps hold comes from files that could be read. -/
structure FromFiles (E : Env) (P : List Byte → List Byte → Prop) (p : Process) : Prop where
  bufr_b : From P (Vartable.load_bufr E) (Grown E) p.bufr_b
  crex_b : From P (Vartable.load_crex E) (Grown E) p.crex_b
  bufr_d : From P DTable.load Eq p.bufr_d
  crex_d : From P DTable.load Eq p.crex_d

theorem FromFiles.step {S : System} {P : List Byte → List Byte → Prop} {p p' : Process}
    (h : FromFiles S.E P p) (hm : StepMoves S p p')
    (hf : ∀ k data, S.files k = some data → P k data) : FromFiles S.E P p' :=
  ⟨h.bufr_b.moves hm.bufr_b hf Grown.bufr Grown.grows,
    h.crex_b.moves hm.crex_b hf Grown.crex Grown.grows,
    h.bufr_d.moves hm.bufr_d hf (fun _ _ _ => rfl) (fun _ _ _ h h' => h.trans h'),
    h.crex_d.moves hm.crex_d hf (fun _ _ _ => rfl) (fun _ _ _ h h' => h.trans h')⟩

/-- Operations, each with the names of files in directories and the contents of
files. -/
abbrev History := List ((List Byte → List (List Byte)) × (List Byte → Option (List Byte)) × ProcessOp)

theorem during_from (E : Env) (P : List Byte → List Byte → Prop) (xs : History)
    (hq : ∀ x ∈ xs, x.2.2.InRange) (hf : ∀ x ∈ xs, ∀ k data, x.2.1 k = some data → P k data)
    (p : Process) (h : FromFiles E P p) : FromFiles E P (p.during E xs) := by
  induction xs generalizing p with
  | nil => exact h
  | cons x xs ih =>
    refine ih (fun y hy => hq y (List.mem_cons_of_mem _ hy))
      (fun y hy => hf y (List.mem_cons_of_mem _ hy)) _ ?_
    exact FromFiles.step (S := ⟨E, x.1, x.2.1⟩) h
      (step_moves _ _ _ (hq x List.mem_cons_self)) (hf x List.mem_cons_self)

/-- What all the maps hold stays. -/
structure Stays (E : Env) (p p' : Process) : Prop where
  bufr_b : ∀ k t, p.bufr_b.lookup k = some t → t.Inv E →
    ∃ t', p'.bufr_b.lookup k = some t' ∧ Grown E t t'
  crex_b : ∀ k t, p.crex_b.lookup k = some t → t.Inv E →
    ∃ t', p'.crex_b.lookup k = some t' ∧ Grown E t t'
  bufr_d : ∀ k t, p.bufr_d.lookup k = some t → p'.bufr_d.lookup k = some t
  crex_d : ∀ k t, p.crex_d.lookup k = some t → p'.crex_d.lookup k = some t

theorem during_stays (E : Env) (xs : History) (hq : ∀ x ∈ xs, x.2.2.InRange) (p : Process) :
    Stays E p (p.during E xs) := by
  induction xs generalizing p with
  | nil =>
    exact ⟨fun k t h hi => ⟨t, h, Grows.refl E t hi⟩, fun k t h hi => ⟨t, h, Grows.refl E t hi⟩,
      fun _ _ h => h, fun _ _ h => h⟩
  | cons x xs ih =>
    have h1 := step_moves ⟨E, x.1, x.2.1⟩ p x.2.2 (hq x List.mem_cons_self)
    have h2 := ih (fun y hy => hq y (List.mem_cons_of_mem _ hy)) (p.step ⟨E, x.1, x.2.1⟩ x.2.2)
    refine ⟨fun k t h hi => ?_, fun k t h hi => ?_, fun k t h => ?_, fun k t h => ?_⟩
    · obtain ⟨t1, h3, h4⟩ := h1.bufr_b.fwd k t h
      obtain ⟨t2, h5, h6⟩ := h2.bufr_b k t1 h3 (h4 hi).2.2
      exact ⟨t2, h5, (h4 hi).1.trans h6.1, hi, h6.2.2⟩
    · obtain ⟨t1, h3, h4⟩ := h1.crex_b.fwd k t h
      obtain ⟨t2, h5, h6⟩ := h2.crex_b k t1 h3 (h4 hi).2.2
      exact ⟨t2, h5, (h4 hi).1.trans h6.1, hi, h6.2.2⟩
    · obtain ⟨t1, h3, rfl⟩ := h1.bufr_d.fwd k t h
      exact h2.bufr_d k t h3
    · obtain ⟨t1, h3, rfl⟩ := h1.crex_d.fwd k t h
      exact h2.crex_d k t h3

theorem Grown.same {E : Env} {t t' : Vartable} (h : Grown E t t') : SameAnswers E t t' :=
  ⟨fun code => congrFun (h.1.query h.2.1.sorted).1 code,
    fun code => congrFun (h.1.query h.2.1.sorted).2 code,
    fun q => h.1.altered h.2.1 h.2.2 q.code q.scale q.bit_len q.bit_ref⟩

theorem SameAnswers.alike {E : Env} {t t' : Vartable} (h : SameAnswers E t t') (O : Opts)
    (d : DTable) : Ctx.Alike ⟨E, O, t, d⟩ ⟨E, O, t', d⟩ :=
  ⟨rfl, rfl, rfl, funext h.1, funext h.2.1, fun code s l r => h.2.2 ⟨code, s, l, r⟩⟩

/-! ## What loading gives -/

theorem loadOnce_ok {α : Type} {files : List Byte → Option (List Byte)}
    {parse : List Byte → Res α} {Q : α → α → Prop} (hQ : ∀ data t, parse data = .ok t → Q t t)
    {m : List (List Byte × α)} (h : Loaded files parse Q m) {k : List Byte} {t : α}
    (he : (loadOnce files parse m k).2 = .ok t) :
    ∃ data t0, files k = some data ∧ parse data = .ok t0 ∧ Q t0 t := by
  unfold loadOnce at he
  cases hm : m.lookup k with
  | some t1 =>
    rw [hm] at he
    cases he
    exact h k t hm
  | none =>
    rw [hm] at he
    simp only at he
    cases hf : files k with
    | none => rw [hf] at he; cases he
    | some data =>
      rw [hf] at he
      simp only at he
      cases hp : parse data with
      | err e => rw [hp] at he; cases he
      | ub => rw [hp] at he; cases he
      | ok t1 =>
        rw [hp] at he
        cases he
        exact ⟨data, t, rfl, hp, hQ _ _ hp⟩

theorem loadOnce_fails {α : Type} {files : List Byte → Option (List Byte)}
    {parse : List Byte → Res α} {m : List (List Byte × α)} {k : List Byte}
    (he : ∀ t, (loadOnce files parse m k).2 ≠ .ok t) (data : List Byte) (hf : files k = some data)
    (t : α) : parse data ≠ .ok t := by
  intro hp
  unfold loadOnce at he
  cases hm : m.lookup k with
  | some t1 =>
    rw [hm] at he
    exact he t1 rfl
  | none =>
    rw [hm] at he
    simp only [hf, hp] at he
    exact he t rfl

theorem setBufr_cases (S : System) (p : Process) (t : Tables) (f : Table) :
    ((p.setBufr S t f).2.2 = .ok () ∧ ∃ b d,
      (p.setBufr S t f).2.1 = { t with
        btable := some (f.btable_pathname, b), dtable := some (f.dtable_pathname, d) } ∧
      (loadOnce S.files (Vartable.load_bufr S.E) p.bufr_b f.btable_pathname).2 = .ok b ∧
      (loadOnce S.files DTable.load p.bufr_d f.dtable_pathname).2 = .ok d) ∨
    ((p.setBufr S t f).2.2 ≠ .ok () ∧ ((p.setBufr S t f).2.1 = t ∨ ∃ b,
      (p.setBufr S t f).2.1 = { t with btable := some (f.btable_pathname, b) } ∧
      (loadOnce S.files (Vartable.load_bufr S.E) p.bufr_b f.btable_pathname).2 = .ok b ∧
      ∀ d, (loadOnce S.files DTable.load p.bufr_d f.dtable_pathname).2 ≠ .ok d)) := by
  unfold setBufr
  simp only
  cases hb : (loadOnce S.files (Vartable.load_bufr S.E) p.bufr_b f.btable_pathname).2 with
  | err e => exact .inr ⟨nofun, .inl rfl⟩
  | ub => exact .inr ⟨nofun, .inl rfl⟩
  | ok b =>
    simp only
    cases hd : (loadOnce S.files DTable.load p.bufr_d f.dtable_pathname).2 with
    | err e => exact .inr ⟨nofun, .inr ⟨b, rfl, rfl, nofun⟩⟩
    | ub => exact .inr ⟨nofun, .inr ⟨b, rfl, rfl, nofun⟩⟩
    | ok d => exact .inl ⟨rfl, b, d, rfl, rfl, rfl⟩

theorem setCrex_cases (S : System) (p : Process) (t : Tables) (f : Table) :
    ((p.setCrex S t f).2.2 = .ok () ∧ ∃ b d,
      (p.setCrex S t f).2.1 = { t with
        btable := some (f.btable_pathname, b), dtable := some (f.dtable_pathname, d) } ∧
      (loadOnce S.files (Vartable.load_crex S.E) p.crex_b f.btable_pathname).2 = .ok b ∧
      (loadOnce S.files DTable.load p.crex_d f.dtable_pathname).2 = .ok d) ∨
    ((p.setCrex S t f).2.2 ≠ .ok () ∧ ((p.setCrex S t f).2.1 = t ∨ ∃ b,
      (p.setCrex S t f).2.1 = { t with btable := some (f.btable_pathname, b) } ∧
      (loadOnce S.files (Vartable.load_crex S.E) p.crex_b f.btable_pathname).2 = .ok b ∧
      ∀ d, (loadOnce S.files DTable.load p.crex_d f.dtable_pathname).2 ≠ .ok d)) := by
  unfold setCrex
  simp only
  cases hb : (loadOnce S.files (Vartable.load_crex S.E) p.crex_b f.btable_pathname).2 with
  | err e => exact .inr ⟨nofun, .inl rfl⟩
  | ub => exact .inr ⟨nofun, .inl rfl⟩
  | ok b =>
    simp only
    cases hd : (loadOnce S.files DTable.load p.crex_d f.dtable_pathname).2 with
    | err e => exact .inr ⟨nofun, .inr ⟨b, rfl, rfl, nofun⟩⟩
    | ub => exact .inr ⟨nofun, .inr ⟨b, rfl, rfl, nofun⟩⟩
    | ok d => exact .inl ⟨rfl, b, d, rfl, rfl, rfl⟩

end Process

end Wreport
