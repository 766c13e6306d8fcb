import Verif.Lemmas.Process
import Verif.Model.Wrep

/-!
# Printing with tables that answer alike
-/

namespace Wreport

open Tabledir Spec Process

variable {C D : Ctx}

namespace Printer

theorem over_alike (h : C.Alike D) (X : Texts) : over D X = over C X := by
  unfold over
  have hp := Over.plain_alike h (target X)
  have hc : Interp.c_modifier D (target X) = Interp.c_modifier C (target X) :=
    congrArg Over.c_modifier hp
  have hb : b_variable D X = b_variable C X := by
    funext st c
    unfold b_variable
    rw [h.contains]
  rw [hp, hc, hb]

theorem print_datadesc_alike (h : C.Alike D) (X : Texts) (depth : Nat) (datadesc : List Varcode)
    (indent : Nat) (caches : TableCaches) :
    print_datadesc D X depth datadesc indent caches = print_datadesc C X depth datadesc indent caches := by
  unfold print_datadesc
  rw [over_alike h, Over.run_alike h]

end Printer

namespace DDSPrinter

theorem target_alike (h : C.Alike D) : target D = target C := by
  unfold target
  rw [h.E, h.O]

theorem over_alike (h : C.Alike D) : over D = over C := by
  unfold over
  rw [target_alike h]
  have hp := Over.plain_alike h (target C)
  have hr : Interp.r_replication D (target C) = Interp.r_replication C (target C) :=
    congrArg Over.r_replication hp
  rw [hp, hr]

theorem printSubsets_alike (h : C.Alike D) (depth : Nat) (datadesc : List Varcode) (n : Nat)
    (subsets : List (List Var)) (caches : TableCaches) :
    printSubsets D depth datadesc n subsets caches = printSubsets C depth datadesc n subsets caches := by
  induction subsets generalizing n caches with
  | nil => rfl
  | cons s rest ih => simp only [printSubsets, printSubset, over_alike h, Over.run_alike h, ih]

end DDSPrinter

namespace Verbose

theorem over_alike {σ : Type} (h : C.Alike D) (T : Target σ) (X : Texts) (Y : Shown σ) :
    over D T X Y = over C T X Y := by
  unfold over
  have hp := Over.plain_alike h (target T X Y)
  have hc : Interp.c_modifier D (target T X Y) = Interp.c_modifier C (target T X Y) :=
    congrArg Over.c_modifier hp
  have hr : Interp.r_replication D (target T X Y) = Interp.r_replication C (target T X Y) :=
    congrArg Over.r_replication hp
  have hv : Interp.b_variable D (target T X Y) = Interp.b_variable C (target T X Y) :=
    congrArg Over.b_variable hp
  have hb : b_variable D T X Y = b_variable C T X Y := by
    funext st c
    unfold b_variable elementText
    rw [h.contains, h.query, hv]
  rw [hp, hc, hr, hb]

theorem decodeSubsets_alike (h : C.Alike D) (X : Texts) (add_undef : Bool) (depth : Nat)
    (datadesc : List Varcode) (n : Nat) (caches : TableCaches) (i : Input) :
    decodeSubsets D X add_undef depth datadesc n caches i =
      decodeSubsets C X add_undef depth datadesc n caches i := by
  induction n generalizing caches i with
  | zero => rfl
  | succ n ih =>
    simp only [decodeSubsets, decodeSubset, Decoder.target_alike h, over_alike h, Over.run_alike h,
      h.E, ih]

theorem decodeBody_alike (h : C.Alike D) (X : Texts) (add_undef : Bool) (depth : Nat)
    (caches : TableCaches) (hd : BufrDec.Head) (n : Nat) (i : Input) :
    decodeBody X add_undef depth (D, caches) hd n i = decodeBody X add_undef depth (C, caches) hd n i := by
  simp only [decodeBody, decodeSubsets_alike h, decodeCompressed, CDecoder.target_alike h,
    over_alike h, Over.run_alike h, h.E]

theorem decodeMessage_near {load load' : Header → Res (Ctx × TableCaches)}
    (h : ∀ hd, Near NearCtx (load hd) (load' hd)) (X : Texts) (add_undef : Bool)
    (depth : Nat) (data : List Byte) :
    decodeMessage load' X add_undef depth data = decodeMessage load X add_undef depth data := by
  unfold decodeMessage BufrDec.decode
  congr 1
  funext hd
  have hn := h hd.header
  cases hl : load hd.header with
  | err e => rw [hl] at hn; simp only [Near] at hn; rw [hn]
  | ub => rw [hl] at hn; simp only [Near] at hn; rw [hn]
  | ok a =>
    rw [hl] at hn
    obtain ⟨⟨D, c⟩, hb, h1, h2⟩ := hn
    obtain ⟨C, c0⟩ := a
    simp only at h1 h2
    subst h2
    rw [hb]
    simp only [Res.ok_bind, decodeBody_alike h1]

end Verbose

/-- The names of tables. -/
def Tables.named (t : Tables) : Option (List Byte) × Option (List Byte) :=
  (t.btable.map (·.1), t.dtable.map (·.1))

namespace Process

theorem near_named {α : Type} {Q : α → α → Prop} {r r' : Res α} (h : Near Q r r') :
    (∀ a, r = .ok a → ∃ b, r' = .ok b) ∧ (∀ e, r = .err e → r' = .err e) ∧ (r = .ub → r' = .ub) := by
  refine ⟨?_, ?_, ?_⟩
  · rintro a rfl
    obtain ⟨t, h, -⟩ := h
    exact ⟨t, h⟩
  · rintro e rfl
    exact h
  · rintro rfl
    exact h

theorem setBufr_named {S : System} {p p0 : Process} (h : p.Inv S) (h0 : p0.bufr_b = [])
    (h0' : p0.bufr_d = []) (t : Tables) (f : Table) :
    (p.setBufr S t f).2.1.named = (p0.setBufr S t f).2.1.named := by
  obtain ⟨-, nb⟩ := loadOnce_near Grown.bufr h.bufr_b f.btable_pathname
  obtain ⟨-, nd⟩ := loadOnce_near (Q := Eq) (fun _ _ _ => rfl) h.bufr_d f.dtable_pathname
  obtain ⟨b1, b2, b3⟩ := near_named nb
  obtain ⟨d1, d2, d3⟩ := near_named nd
  unfold setBufr
  simp only [h0, h0']
  cases e0 : (loadOnce S.files (Vartable.load_bufr S.E) [] f.btable_pathname).2 with
  | err e => simp only [b2 _ e0]
  | ub => simp only [b3 e0]
  | ok bt =>
    obtain ⟨bt', e1⟩ := b1 _ e0
    simp only [e1]
    cases e2 : (loadOnce S.files DTable.load [] f.dtable_pathname).2 with
    | err e => simp only [d2 _ e2, Tables.named, Option.map_some]
    | ub => simp only [d3 e2, Tables.named, Option.map_some]
    | ok dt =>
      obtain ⟨dt', e3⟩ := d1 _ e2
      simp only [e3, Tables.named, Option.map_some]

theorem setCrex_named {S : System} {p p0 : Process} (h : p.Inv S) (h0 : p0.crex_b = [])
    (h0' : p0.crex_d = []) (t : Tables) (f : Table) :
    (p.setCrex S t f).2.1.named = (p0.setCrex S t f).2.1.named := by
  obtain ⟨-, nb⟩ := loadOnce_near Grown.crex h.crex_b f.btable_pathname
  obtain ⟨-, nd⟩ := loadOnce_near (Q := Eq) (fun _ _ _ => rfl) h.crex_d f.dtable_pathname
  obtain ⟨b1, b2, b3⟩ := near_named nb
  obtain ⟨d1, d2, d3⟩ := near_named nd
  unfold setCrex
  simp only [h0, h0']
  cases e0 : (loadOnce S.files (Vartable.load_crex S.E) [] f.btable_pathname).2 with
  | err e => simp only [b2 _ e0]
  | ub => simp only [b3 e0]
  | ok bt =>
    obtain ⟨bt', e1⟩ := b1 _ e0
    simp only [e1]
    cases e2 : (loadOnce S.files DTable.load [] f.dtable_pathname).2 with
    | err e => simp only [d2 _ e2, Tables.named, Option.map_some]
    | ub => simp only [d3 e2, Tables.named, Option.map_some]
    | ok dt =>
      obtain ⟨dt', e3⟩ := d1 _ e2
      simp only [e3, Tables.named, Option.map_some]

theorem load_bufr_named {S : System} {p : Process} (h : p.Inv S) (t : Tables) (id : BufrTableID) :
    (p.load_bufr S t id).2.1.named = ((fresh p.dirs.dirs).load_bufr S t id).2.1.named := by
  obtain ⟨h1, h2⟩ := Tabledirs.find_bufr_good h.dirs id
  obtain ⟨h3, -⟩ := Tabledirs.find_bufr_good (fresh_inv S p.dirs.dirs).dirs id
  have e : (p.dirs.find_bufr S.names id).1 = ((fresh p.dirs.dirs).dirs.find_bufr S.names id).1 :=
    h1.trans h3.symm
  unfold load_bufr
  simp only
  rw [← e]
  have hi : ({ p with dirs := (p.dirs.find_bufr S.names id).2 } : Process).Inv S :=
    ⟨h2, h.bufr_b, h.crex_b, h.bufr_d, h.crex_d⟩
  cases (p.dirs.find_bufr S.names id).1 with
  | none => rfl
  | some f => exact setBufr_named hi (p0 := { fresh p.dirs.dirs with dirs := _ }) rfl rfl t f

theorem load_crex_named {S : System} {p : Process} (h : p.Inv S) (t : Tables) (id : CrexTableID) :
    (p.load_crex S t id).2.1.named = ((fresh p.dirs.dirs).load_crex S t id).2.1.named := by
  obtain ⟨h1, h2⟩ := Tabledirs.find_crex_good h.dirs id
  obtain ⟨h3, -⟩ := Tabledirs.find_crex_good (fresh_inv S p.dirs.dirs).dirs id
  have e : (p.dirs.find_crex S.names id).1 = ((fresh p.dirs.dirs).dirs.find_crex S.names id).1 :=
    h1.trans h3.symm
  unfold load_crex
  simp only
  rw [← e]
  have hi : ({ p with dirs := (p.dirs.find_crex S.names id).2 } : Process).Inv S :=
    ⟨h2, h.bufr_b, h.crex_b, h.bufr_d, h.crex_d⟩
  cases (p.dirs.find_crex S.names id).1 with
  | none => rfl
  | some f => exact setCrex_named hi (p0 := { fresh p.dirs.dirs with dirs := _ }) rfl rfl t f

end Process

namespace Wrep

theorem tablePath_named {t t' : Tables} (h : t.named = t'.named) : tablePath t = tablePath t' := by
  have h := congrArg Prod.fst h
  unfold Tables.named at h
  unfold tablePath
  cases hb : t.btable <;> cases hb' : t'.btable <;> rw [hb, hb'] at h <;>
    simp only [Option.map_some, Option.map_none, Option.some.injEq, reduceCtorEq] at h ⊢
  exact h

theorem tableName_named {α β : Type} {t : Option (List Byte × α)} {t' : Option (List Byte × β)}
    (h : t.map (·.1) = t'.map (·.1)) : Dump.tableName t = Dump.tableName t' := by
  cases t <;> cases t' <;> simp only [Option.map_some, Option.map_none, Option.some.injEq, reduceCtorEq] at h
  · rfl
  · simp only [Dump.tableName, h]

theorem head_tables (b : Bulletin) {t : Tables} (h : t.named = b.tables.named) :
    Dump.head { b with tables := t } = Dump.head b := by
  have h1 := tableName_named (congrArg Prod.fst h)
  have h2 := tableName_named (congrArg Prod.snd h)
  have e : Dump.tablesLine { b with tables := t } = Dump.tablesLine b := by
    simp only [Dump.tablesLine, h1, h2]
  unfold Dump.head
  rw [e]
  rfl

theorem bulletin_tables (fname : List Byte) (offset : Nat) (t t' : Tables) (subsets : List (List Var))
    (k : Head) : bulletin fname offset t subsets k =
      { bulletin fname offset t' subsets k with tables := t } := by
  cases k <;> rfl

theorem head_named {t t' : Tables} (h : t.named = t'.named) (fname : List Byte) (offset : Nat)
    (subsets : List (List Var)) (k : Head) :
    Dump.head (bulletin fname offset t subsets k) = Dump.head (bulletin fname offset t' subsets k) := by
  rw [bulletin_tables fname offset t t' subsets k]
  refine head_tables _ (h.trans ?_)
  cases k <;> rfl

theorem print_named {t t' : Tables} (h : t.named = t'.named) (E : Env) (desc : Varinfo → List Byte)
    (fname : List Byte) (offset : Nat) (subsets : List (List Var)) (k : Head) :
    Dump.print E desc (bulletin fname offset t subsets k) =
      Dump.print E desc (bulletin fname offset t' subsets k) := by
  unfold Dump.print
  rw [head_named h]
  have e : (bulletin fname offset t subsets k).subsets = (bulletin fname offset t' subsets k).subsets := by
    cases k <;> rfl
  rw [e]

theorem texts_alike (h : C.Alike D) (desc : Varinfo → List Byte) (path : List Byte) :
    texts desc path D = texts desc path C := by
  unfold texts
  rw [h.query]

end Wrep

end Wreport
