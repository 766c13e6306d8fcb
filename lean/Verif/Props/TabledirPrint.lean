import Verif.Lemmas.DecimalUnique
import Verif.Lemmas.WrepRun
import Verif.Props.Format
import Verif.Props.Tabledir
import Verif.Props.Wrep
import Verif.Spec.TabledirPrint

/-!
# Printing and explaining of tables: theorems
-/

namespace Wreport

open Spec Tabledir

namespace Tabledir

theorem zerosBefore_iff {w n : Nat} {t : List Byte} : ZerosBefore w n t ↔ t = Crex.fmtU w n := by
  constructor
  · rintro ⟨d, h, rfl⟩
    rw [h.unique (decDigits_decimal n)]
    rfl
  · rintro rfl
    exact ⟨_, decDigits_decimal n, rfl⟩

theorem idText_iff {t : Table} {s : List Byte} : IdText t.kind s ↔ s = t.print_id := by
  unfold Table.print_id
  constructor
  · intro h
    cases hk : t.kind with
    | raw => rw [hk] at h; cases h; rfl
    | bufr id =>
      rw [hk] at h
      cases h with
      | bufr h1 h2 h3 h4 h5 =>
        rw [zerosBefore_iff] at h1 h2 h3 h4 h5
        subst h1 h2 h3 h4 h5
        rfl
    | crex id =>
      rw [hk] at h
      cases h with
      | crex h1 h2 h3 h4 h5 h6 h7 =>
        rw [zerosBefore_iff] at h1 h2 h3 h4 h5 h6 h7
        subst h1 h2 h3 h4 h5 h6 h7
        rfl
  · rintro rfl
    cases t.kind with
    | raw => exact .raw
    | bufr id =>
      exact .bufr (zerosBefore_iff.mpr rfl) (zerosBefore_iff.mpr rfl) (zerosBefore_iff.mpr rfl)
        (zerosBefore_iff.mpr rfl) (zerosBefore_iff.mpr rfl)
    | crex id =>
      exact .crex (zerosBefore_iff.mpr rfl) (zerosBefore_iff.mpr rfl) (zerosBefore_iff.mpr rfl)
        (zerosBefore_iff.mpr rfl) (zerosBefore_iff.mpr rfl) (zerosBefore_iff.mpr rfl)
        (zerosBefore_iff.mpr rfl)

/-- The number is read back from its text, which ends before anything that is no digit. -/
theorem zerosBefore_cut {w n m : Nat} {a b r r' : List Byte} {c : Byte} (hc : ¬ (48 ≤ c.toNat ∧ c.toNat ≤ 57))
    (ha : ZerosBefore w n a) (hb : ZerosBefore w m b) (h : a ++ c :: r = b ++ c :: r') :
    n = m ∧ r = r' := by
  have dig : ∀ {n : Nat} {t : List Byte}, ZerosBefore w n t →
      (∀ x ∈ t, 48 ≤ x.toNat ∧ x.toNat ≤ 57) ∧ digitsValue t = n := by
    rintro n t ⟨d, ⟨-, h1, h2, -⟩, rfl⟩
    constructor
    · intro x hx
      rcases List.mem_append.mp hx with hx | hx
      · rw [(List.mem_replicate.mp hx).2]; decide
      · exact h1 x hx
    · rw [← h2]
      generalize w - d.length = k
      unfold digitsValue
      rw [List.foldl_append]
      congr 1
      induction k with
      | zero => rfl
      | succ k ih => rw [List.replicate_succ, List.foldl_cons]; exact ih
  obtain ⟨a1, a2⟩ := dig ha
  obtain ⟨b1, b2⟩ := dig hb
  have key : ∀ (a b : List Byte), (∀ x ∈ a, 48 ≤ x.toNat ∧ x.toNat ≤ 57) →
      (∀ x ∈ b, 48 ≤ x.toNat ∧ x.toNat ≤ 57) → a ++ c :: r = b ++ c :: r' → a = b ∧ r = r' := by
    intro a
    induction a with
    | nil =>
      intro b _ hb h
      cases b with
      | nil => exact ⟨rfl, (List.cons.inj h).2⟩
      | cons y b =>
        have := (List.cons.inj h).1
        exact absurd (hb y (by simp)) (this ▸ hc)
    | cons x a ih =>
      intro b ha hb h
      cases b with
      | nil =>
        have := (List.cons.inj h).1
        exact absurd (ha x (by simp)) (this ▸ hc)
      | cons y b =>
        obtain ⟨e1, e2⟩ := List.cons.inj h
        obtain ⟨e3, e4⟩ := ih b (fun z hz => ha z (by simp [hz])) (fun z hz => hb z (by simp [hz])) e2
        exact ⟨by rw [e1, e3], e4⟩
  obtain ⟨e1, e2⟩ := key a b a1 b1 h
  exact ⟨by rw [← a2, ← b2, e1], e2⟩

theorem bufr_text (ce sc mt v l : List Byte) :
    ascii "BUFR(" ++ ce ++ ascii ":" ++ sc ++ ascii ", " ++ mt ++ ascii ":" ++ v ++ ascii ":" ++ l ++ ascii ")" =
    66 :: 85 :: 70 :: 82 :: 40 :: (ce ++ 58 :: (sc ++ 44 :: 32 :: (mt ++ 58 :: (v ++ 58 :: (l ++ 41 :: []))))) := by
  simp only [List.append_assoc]
  rfl

theorem crex_text (ed ce sc mt v l b : List Byte) :
    ascii "CREX(" ++ ed ++ ascii ", " ++ ce ++ ascii ":" ++ sc ++ ascii ", " ++ mt ++ ascii ":" ++ v ++
      ascii ":" ++ l ++ ascii ":" ++ b ++ ascii ")" =
    67 :: 82 :: 69 :: 88 :: 40 :: (ed ++ 44 :: 32 :: (ce ++ 58 :: (sc ++ 44 :: 32 :: (mt ++ 58 :: (v ++ 58 ::
      (l ++ 58 :: (b ++ 41 :: []))))))) := by
  simp only [List.append_assoc]
  rfl

end Tabledir

/-- C119: the text about a table tells which table it is. -/
theorem C119_told_apart {k k' : Kind} {t : List Byte} (h : IdText k t) (h' : IdText k' t) : k = k' := by
  generalize he : t = t' at h'
  cases h with
  | raw =>
    cases h' with
    | raw => rfl
    | bufr => rw [bufr_text] at he; exact absurd (List.cons.inj he).1 (by decide)
    | crex => rw [crex_text] at he; exact absurd (List.cons.inj he).1 (by decide)
  | @bufr id ce sc mt v l a1 a2 a3 a4 a5 =>
    rw [bufr_text] at he
    cases h' with
    | raw => exact absurd (List.cons.inj he).1 (by decide)
    | @bufr id' ce' sc' mt' v' l' b1 b2 b3 b4 b5 =>
      rw [bufr_text] at he
      simp only [List.cons.injEq, true_and] at he
      obtain ⟨e1, he⟩ := zerosBefore_cut (by decide) a1 b1 he
      obtain ⟨e2, he⟩ := zerosBefore_cut (by decide) a2 b2 he
      obtain ⟨e3, he⟩ := zerosBefore_cut (by decide) a3 b3 (List.cons.inj he).2
      obtain ⟨e4, he⟩ := zerosBefore_cut (by decide) a4 b4 he
      obtain ⟨e5, he⟩ := zerosBefore_cut (by decide) a5 b5 he
      cases id; cases id'
      simp only [Kind.bufr.injEq, BufrTableID.mk.injEq]
      exact ⟨UInt16.toNat_inj.mp e1, UInt16.toNat_inj.mp e2, UInt8.toNat_inj.mp e3,
        UInt8.toNat_inj.mp e4, UInt8.toNat_inj.mp e5⟩
    | crex => rw [crex_text] at he; exact absurd (List.cons.inj he).1 (by decide)
  | @crex id ed ce sc mt v l b a1 a2 a3 a4 a5 a6 a7 =>
    rw [crex_text] at he
    cases h' with
    | raw => exact absurd (List.cons.inj he).1 (by decide)
    | bufr => rw [bufr_text] at he; exact absurd (List.cons.inj he).1 (by decide)
    | @crex id' ed' ce' sc' mt' v' l' b' b1 b2 b3 b4 b5 b6 b7 =>
      rw [crex_text] at he
      simp only [List.cons.injEq, true_and] at he
      obtain ⟨e1, he⟩ := zerosBefore_cut (by decide) a1 b1 he
      obtain ⟨e2, he⟩ := zerosBefore_cut (by decide) a2 b2 (List.cons.inj he).2
      obtain ⟨e3, he⟩ := zerosBefore_cut (by decide) a3 b3 he
      obtain ⟨e4, he⟩ := zerosBefore_cut (by decide) a4 b4 (List.cons.inj he).2
      obtain ⟨e5, he⟩ := zerosBefore_cut (by decide) a5 b5 he
      obtain ⟨e6, he⟩ := zerosBefore_cut (by decide) a6 b6 he
      obtain ⟨e7, he⟩ := zerosBefore_cut (by decide) a7 b7 he
      cases id; cases id'
      simp only [Kind.crex.injEq, CrexTableID.mk.injEq]
      exact ⟨UInt8.toNat_inj.mp e1, UInt16.toNat_inj.mp e2, UInt16.toNat_inj.mp e3,
        UInt8.toNat_inj.mp e4, UInt8.toNat_inj.mp e5, UInt8.toNat_inj.mp e7, UInt8.toNat_inj.mp e6⟩

namespace Tabledir

theorem forall₂_parts {α β : Type} {R : α → β → Prop} {a b : List α} {ts : List β}
    (h : List.Forall₂ R (a ++ b) ts) :
    ∃ x y, List.Forall₂ R a x ∧ List.Forall₂ R b y ∧ ts = x ++ y := by
  induction a generalizing ts with
  | nil => exact ⟨[], ts, .nil, h, rfl⟩
  | cons c a ih =>
    cases h with
    | cons h1 h2 =>
      obtain ⟨x, y, e1, e2, rfl⟩ := ih h2
      exact ⟨_, y, .cons h1 e1, e2, rfl⟩

theorem shown_eq {s : List Byte} (h : NulFree s) : shown s = s := by
  unfold shown
  rw [List.takeWhile_eq_self_iff]
  intro b hb
  simpa using h b hb

/-- What the name of a table file is, and its stem. -/
theorem fileKind_stem {n : List Byte} {k : Kind} (h : fileKind n = some k) (d : List Byte) :
    n = (Table.make k d n).btable_id ++ ascii ".txt" := by
  unfold fileKind at h
  split_ifs at h with h1 h2
  have h2' : n.drop (n.length - 4) = ascii ".txt" := by simpa using h2
  have e : n = n.take (n.length - 4) ++ ascii ".txt" := by
    rw [← h2', List.take_append_drop]
  have hs : ∀ s : List Byte, beforeLast 46 (s ++ ascii ".txt") = some s := by
    intro s
    unfold beforeLast
    rw [if_pos (List.mem_append_right _ (by decide))]
    rw [List.reverse_append]
    show some ((List.dropWhile _ (116 :: 120 :: 116 :: 46 :: s.reverse)).drop 1).reverse = _
    simp [List.dropWhile]
  show n = (beforeLast 46 n).getD n ++ _
  rw [e, hs]
  rfl

theorem indexed_made {names : List Byte → List (List Byte)} {t : Tabledirs} (h : t.Good names) :
    t.indexed names = t.dirs.map fun d => (d, Dir.tables d (names d)) := by
  unfold Tabledirs.indexed
  rw [(Tabledirs.getIndex_good h).1, List.zip_map_right]
  induction t.dirs with
  | nil => rfl
  | cons d ds ih => simpa using ih

theorem get_after (names : List Byte → List (List Byte)) (e : Environ) :
    Tabledirs.get e = Tabledirs.after names
      ((e.extra.toList ++ e.tables.toList ++ [e.table_dir]).map .add) := by
  unfold Tabledirs.get Tabledirs.add_default_directories Tabledirs.after
  cases e.extra <;> cases e.tables <;> rfl

theorem print_iff {names : List Byte → List (List Byte)} {t : Tabledirs} (h : t.Good names)
    (hd : ∀ d ∈ t.dirs, NulFree d ∧ ∀ n ∈ names d, NulFree n) (out : List Byte) :
    out = t.print names ↔
      ∃ ts, List.Forall₂ FileLine (tableFiles names t.dirs) ts ∧ out = ts.flatten := by
  -- one line
  have line : ∀ d n k, NulFree d → NulFree n → fileKind n = some k → ∀ x, FileLine (d, n, k) x ↔
      x = Tabledirs.tableLine d (Table.make k d n) := by
    intro d n k hd hn hk x
    have e := fileKind_stem hk d
    have hs : NulFree (Table.make k d n).btable_id := by
      intro b hb
      exact hn b (by rw [e]; exact List.mem_append_left _ hb)
    unfold Tabledirs.tableLine
    rw [shown_eq hd, shown_eq hs]
    constructor
    · rintro ⟨stem, id, h1, h2, rfl⟩
      have : stem = (Table.make k d n).btable_id := List.append_cancel_right (h1.symm.trans e)
      subst this
      rw [(idText_iff (t := Table.make k d n)).mp h2]
    · rintro rfl
      exact ⟨_, _, e, (idText_iff (t := Table.make k d n)).mpr rfl, rfl⟩
  have dir : ∀ d, NulFree d → ∀ ns : List (List Byte), (∀ n ∈ ns, NulFree n) → ∀ ts,
      List.Forall₂ FileLine (ns.filterMap fun n => (fileKind n).map fun k => (d, n, k)) ts ↔
      ts = (Dir.tables d ns).map (Tabledirs.tableLine d) := by
    intro d hd ns
    induction ns with
    | nil =>
      intro _ ts
      simp [Dir.tables]
    | cons n ns ih =>
      intro hn ts
      have ih := ih (fun m hm => hn m (by simp [hm]))
      cases hk : fileKind n with
      | none =>
        rw [List.filterMap_cons_none (by rw [hk]; rfl), ih ts]
        unfold Dir.tables
        rw [List.filterMap_cons_none (by rw [hk]; rfl)]
      | some k =>
        rw [List.filterMap_cons_some (by rw [hk]; rfl)]
        unfold Dir.tables
        rw [List.filterMap_cons_some (by rw [hk]; rfl), List.map_cons]
        constructor
        · intro h
          cases h with
          | cons h1 h2 =>
            rw [(line d n k hd (hn n (by simp)) hk _).mp h1, (ih _).mp h2]
            rfl
        · rintro rfl
          exact .cons ((line d n k hd (hn n (by simp)) hk _).mpr rfl) ((ih _).mpr rfl)
  have all : ∀ ds : List (List Byte), (∀ d ∈ ds, NulFree d ∧ ∀ n ∈ names d, NulFree n) → ∀ ts,
      List.Forall₂ FileLine (tableFiles names ds) ts ↔
      ts = ds.flatMap fun d => (Dir.tables d (names d)).map (Tabledirs.tableLine d) := by
    intro ds
    induction ds with
    | nil => intro _ ts; simp [tableFiles]
    | cons d ds ih =>
      intro hd ts
      have ih := ih (fun m hm => hd m (by simp [hm]))
      have e := dir d (hd d (by simp)).1 (names d) (hd d (by simp)).2
      show List.Forall₂ FileLine (_ ++ tableFiles names ds) ts ↔ _
      rw [List.flatMap_cons]
      constructor
      · intro h
        obtain ⟨x, y, h1, h2, rfl⟩ := forall₂_parts h
        rw [(e _).mp h1, (ih _).mp h2]
      · rintro rfl
        exact List.rel_append ((e _).mpr rfl) ((ih _).mpr rfl)
  have hp : t.print names = (t.dirs.flatMap fun d =>
      (Dir.tables d (names d)).map (Tabledirs.tableLine d)).flatten := by
    unfold Tabledirs.print
    rw [indexed_made h]
    induction t.dirs with
    | nil => rfl
    | cons d ds ih =>
      rw [List.map_cons, List.flatMap_cons, List.flatMap_cons, ih, List.flatten_append, List.flatMap_def]
  constructor
  · intro e
    exact ⟨_, (all _ hd _).mpr rfl, by rw [e, hp]⟩
  · rintro ⟨ts, h1, rfl⟩
    rw [(all _ hd _).mp h1, hp]

end Tabledir

/-- C119: `wrep` asked for the list of tables writes one line for each file that is a table in
the default directories, in the order in which they are searched, with its path and the table that
it is. -/
theorem C119_listed (M : Wrep.Machine) {args files : List (List Byte)} {o : Wrep.Options}
    (hc : Command args .new o files) (ha : o.action = .listTables)
    (hd : ∀ d ∈ M.dirs, NulFree d ∧ ∀ n ∈ M.S.names d, NulFree n) (out : List Byte) (status : Nat) :
    Wrep.main M args = .ended (out, status) ↔ status = 0 ∧
      ∃ ts, List.Forall₂ FileLine (tableFiles M.S.names (addedDirs
        ((M.environ.extra.toList ++ M.environ.tables.toList ++ [M.environ.table_dir]).map .add))) ts ∧
      out = ts.flatten := by
  obtain ⟨h1, h2⟩ := Wrep.command_understood hc
  unfold Wrep.main
  simp only [h1, h2]
  rw [if_neg (by rw [ha]; nofun), if_neg (by rw [ha]; nofun), if_pos ha]
  have hg := get_after M.S.names M.environ
  unfold Wrep.Machine.dirs at hd
  rw [hg] at hd ⊢
  rw [← C63_order M.S.names, ← print_iff (Tabledirs.after_good _ _) hd]
  simp only [Wrep.Ran.ended.injEq, Prod.mk.injEq]
  constructor
  · rintro ⟨rfl, rfl⟩; exact ⟨rfl, rfl⟩
  · rintro ⟨rfl, rfl⟩; exact ⟨rfl, rfl⟩

/-- What is in two directories. -/
def listingNames (d : List Byte) : List (List Byte) :=
  if d = ascii "/usr" then [ascii "B000103.txt", ascii "readme"]
  else [bufrTableLongName 0 0 98 14 2, ascii "units.txt"]

/-- A variable that names a directory. -/
def listingMachine : Wrep.Machine :=
  { printerMachine with
    environ := ⟨none, some (ascii "/opt/"), ascii "/usr"⟩
    S := ⟨printerMachine.S.E, listingNames, printerMachine.S.files⟩ }

/-- C119 with tables of all kinds and a file that is none. -/
example : Command [ascii "-L"] .new { Wrep.Options.new with action := .listTables } [] ∧
    Wrep.main listingMachine [ascii "-L"] = .ended (utf8 (
      "/opt/B0000000000098014002:BUFR(098:00, 00:14:02)\n/opt/units:(raw data)\n" ++
      "/usr/B000103:CREX(01, 00:00, 00:03:00:00)\n"), 0) := by
  refine ⟨.letter (e := (76, ascii "list-tables", fun o => { o with action := .listTables }))
    (by simp [documented]) (by decide) .nil, ?_⟩
  decide +kernel

/-! ## C120 -/

namespace Tabledir

theorem bestText_iff {usable : Kind → Prop} {closer : Kind → Kind → Prop} {tables : List Table}
    {r : Option Table} (h1 : r = none → ∀ u ∈ tables, ¬ usable u.kind)
    (h2 : ∀ b, r = some b → IsBest usable closer tables b) :
    BestText usable closer tables (Query.bestText r) := by
  cases r with
  | none => exact .inl ⟨h1 rfl, rfl⟩
  | some b => exact .inr ⟨b, h2 b rfl, idText_iff.mpr rfl⟩

/-- The tables of some directories, with the names of the directories. -/
def spread (ds : List (List Byte × List Table)) : List (List Byte × Table) :=
  ds.flatMap fun d => d.2.map fun t => (d.1, t)

/-- What an explanation says if the best tables are right. -/
theorem explain_steps {q : Query} {kb : BufrTableID → List Nat} {kc : CrexTableID → List Nat}
    (hb : ∀ a b, q.second_bufr a b = !decide (lexCmp (kb a) (kb b) ≤ 0))
    (hc : ∀ a b, q.acceptable_crex a = true → q.second_crex a b = some (!decide (lexCmp (kc a) (kc b) ≤ 0)))
    {ub uc : Kind → Prop} {closer : Kind → Kind → Prop}
    (hbest : ∀ tables b, Best.Of q kb kc tables b →
      BestText ub closer tables (Query.bestText (b.bufr.map Prod.snd)) ∧
      BestText uc closer tables (Query.bestText (b.crex.map Prod.snd)))
    (ds : List (List Byte × List Table)) (hd : ∀ d ∈ ds, NulFree d.1) {seen : List Table} {b : Best}
    (h : Best.Of q kb kc seen b) :
    ∃ steps, StepLines ub uc closer seen (spread ds) steps ∧
      q.explain b ds = steps ++ q.explain_result ((ds.map Prod.snd).foldl q.search b) := by
  -- the steps of one directory
  have one : ∀ (d : List Byte), NulFree d → ∀ (ts : List Table) (seen : List Table) (b : Best),
      Best.Of q kb kc seen b → ∀ (l : List (List Byte × Table)) (rest : List Byte),
      StepLines ub uc closer (seen ++ ts) l rest →
      StepLines ub uc closer seen (ts.map (fun t => (d, t)) ++ l) ((q.explain_search d b ts).1 ++ rest) ∧
      (q.explain_search d b ts).2 = q.search b ts := by
    intro d hd ts
    induction ts with
    | nil => intro seen b h l rest hr; exact ⟨by simpa [Query.explain_search] using hr, rfl⟩
    | cons t ts ih =>
      intro seen b h l rest hr
      have h' := consider_of hb hc h t
      obtain ⟨i1, i2⟩ := ih (seen ++ [t]) _ h' l rest (by simpa using hr)
      obtain ⟨b1, b2⟩ := hbest _ _ h'
      refine ⟨?_, i2⟩
      have := StepLines.cons (d := d) (idText_iff (t := t).mpr rfl) b1 b2 i1
      rw [List.map_cons, List.cons_append]
      unfold Query.explain_search
      simp only [shown_eq hd]
      simpa only [List.append_assoc] using this
  induction ds generalizing seen b with
  | nil => exact ⟨[], .nil, rfl⟩
  | cons d ds ih =>
    obtain ⟨steps, s1, s2⟩ := ih (fun x hx => hd x (by simp [hx])) (search_of hb hc h d.2)
    obtain ⟨o1, o2⟩ := one d.1 (hd d (by simp)) d.2 seen b h _ _ s1
    refine ⟨_, o1, ?_⟩
    show (q.explain_search d.1 b d.2).1 ++ q.explain (q.explain_search d.1 b d.2).2 ds = _
    rw [o2, s2, List.append_assoc]
    rfl

/-- Answers depend only on the directories. -/
theorem explain_later {names : List Byte → List (List Byte)} {t u : Tabledirs} (ht : t.Good names)
    (hu : u.Good names) (hd : u.dirs = t.dirs) (more : List DirOp) (op : DirOp) :
    ((more.foldl (fun t op => (t.step names op).2) u).step names op).1 =
    ((more.foldl (fun t op => (t.step names op).2) t).step names op).1 := by
  induction more generalizing t u with
  | nil =>
    cases op with
    | add d => rfl
    | bufr id =>
      show (u.find_bufr names id).1 = (t.find_bufr names id).1
      rw [(Tabledirs.find_bufr_good hu id).1, (Tabledirs.find_bufr_good ht id).1, hd]
    | crex id =>
      show (u.find_crex names id).1 = (t.find_crex names id).1
      rw [(Tabledirs.find_crex_good hu id).1, (Tabledirs.find_crex_good ht id).1, hd]
  | cons x more ih =>
    have good : ∀ (t : Tabledirs) (d : List Byte), t.Good names → (t.add_directory d).Good names := by
      intro t d h
      unfold Tabledirs.add_directory
      split
      · exact h
      · intro x hx; cases hx
    cases x with
    | add d =>
      refine ih (good t d ht) (good u d hu) ?_
      show (u.add_directory d).dirs = (t.add_directory d).dirs
      unfold Tabledirs.add_directory
      rw [hd]
      split
      · exact hd
      · rfl
    | bufr id => exact ih (Tabledirs.find_bufr_good ht id).2 (Tabledirs.find_bufr_good hu id).2 hd
    | crex id => exact ih (Tabledirs.find_crex_good ht id).2 (Tabledirs.find_crex_good hu id).2 hd

theorem explained_good {names : List Byte → List (List Byte)} {t : Tabledirs} (h : t.Good names) :
    Tabledirs.Good names { t with index := some (t.getIndex names) } := by
  intro x hx
  cases hx
  exact Tabledirs.getIndex_good h

theorem chosen_iff (q : Query) (b : Best) : ChosenLine (q.result b) (q.explain_result b) := by
  unfold Query.explain_result ChosenLine
  cases q.result b with
  | none => exact rfl
  | some x => exact ⟨_, idText_iff.mpr rfl, rfl⟩

end Tabledir

/-- C120 for BUFR: whatever was asked before, the explanation of a choice goes through all the
tables in the order in which they are searched, says after each of them which is the best one so
far, and names at the end the table that a search finds. Nothing that is asked later depends on whether it was
asked for. -/
theorem C120_bufr (names : List Byte → List (List Byte)) (ops : List DirOp) (w : BufrTableID)
    (hd : ∀ d ∈ (Tabledirs.after names ops).dirs, NulFree d) :
    let t := Tabledirs.after names ops
    (∃ steps last, (t.explain_find_bufr names w).1 = steps ++ last ∧
      StepLines (UsableB w) (fun _ => False) (CloserB w) []
        (t.dirs.flatMap fun d => (Dir.tables d (names d)).map fun x => (d, x)) steps ∧
      ChosenLine (t.find_bufr names w).1 last) ∧
    ∀ more : List DirOp, ∀ op : DirOp,
      ((more.foldl (fun t op => (t.step names op).2) (t.explain_find_bufr names w).2).step names op).1 =
      ((more.foldl (fun t op => (t.step names op).2) t).step names op).1 := by
  intro t
  have hg := Tabledirs.after_good names ops
  refine ⟨?_, fun more op => explain_later hg (explained_good hg) rfl more op⟩
  have h := explain_steps (q := BufrQuery w) (kb := closeness w) (kc := fun _ => [])
    (ub := UsableB w) (uc := fun _ => False) (closer := CloserB w)
    (fun a b => by rw [← BufrTableID.closest_eq]; rfl) (fun a b h => by cases h) (by
      rintro tables b ⟨h1, h2, h3, h4⟩
      constructor
      · refine bestText_iff (fun e u hu hk => ?_) (fun x e => ?_)
        · cases hq : u.kind with
          | bufr id =>
            rw [hq] at hk
            have := h1 (by simpa using e) u hu id hq
            rw [show (BufrQuery w).acceptable_bufr id = w.is_acceptable_bufr id from rfl,
              (acceptableB w id).mpr hk] at this
            cases this
          | crex id => rw [hq] at hk; exact hk
          | raw => rw [hq] at hk; exact hk
        · cases hb : b.bufr with
          | none => rw [hb] at e; cases e
          | some y =>
            rw [hb] at e
            cases e
            obtain ⟨e1, e2, e3, e4⟩ := h3 y.1 y.2 hb
            refine ⟨e1, by rw [e2]; exact (acceptableB w y.1).mp e3, fun u hm hu' hcl => ?_⟩
            cases hk : u.kind with
            | bufr id =>
              rw [hk] at hu' hcl
              rw [e2] at hcl
              have h5 := e4 u hm id hk ((acceptableB w id).mpr hu')
              have h6 : lexCmp (closeness w id) (closeness w y.1) < 0 := hcl
              have := lexCmp_neg (closeness w id) (closeness w y.1)
              omega
            | crex id => rw [hk] at hu'; exact hu'
            | raw => rw [hk] at hu'; exact hu'
      · refine bestText_iff (fun e u hu hk => hk) (fun x e => ?_)
        cases hb : b.crex with
        | none => rw [hb] at e; cases e
        | some y => have := (h4 y.1 y.2 hb).2.2.1; cases this)
    (t.indexed names) (by
      rw [indexed_made hg]
      intro d hm
      obtain ⟨x, hx, rfl⟩ := List.mem_map.mp hm
      exact hd x hx) (Best.of_nil _ _ _)
  obtain ⟨steps, s1, s2⟩ := h
  refine ⟨steps, _, s2, ?_, ?_⟩
  · rw [indexed_made hg] at s1
    unfold spread at s1
    rw [List.flatMap_map] at s1
    exact s1
  · rw [(Tabledirs.find_bufr_good hg w).1, indexed_made hg, List.map_map]
    exact chosen_iff _ _

/-- C120 for CREX. -/
theorem C120_crex (names : List Byte → List (List Byte)) (ops : List DirOp) (w : CrexTableID)
    (hd : ∀ d ∈ (Tabledirs.after names ops).dirs, NulFree d) :
    let t := Tabledirs.after names ops
    (∃ steps last, (t.explain_find_crex names w).1 = steps ++ last ∧
      StepLines (fun k => IsBufrTable k ∧ UsableC w k) (fun k => IsCrexTable k ∧ UsableC w k) (CloserC w) []
        (t.dirs.flatMap fun d => (Dir.tables d (names d)).map fun x => (d, x)) steps ∧
      ChosenLine (t.find_crex names w).1 last) ∧
    ∀ more : List DirOp, ∀ op : DirOp,
      ((more.foldl (fun t op => (t.step names op).2) (t.explain_find_crex names w).2).step names op).1 =
      ((more.foldl (fun t op => (t.step names op).2) t).step names op).1 := by
  intro t
  have hg := Tabledirs.after_good names ops
  refine ⟨?_, fun more op => explain_later hg (explained_good hg) rfl more op⟩
  have h := explain_steps (q := CrexQuery w) (kb := closenessCB w) (kc := closenessCC w)
    (ub := fun k => IsBufrTable k ∧ UsableC w k) (uc := fun k => IsCrexTable k ∧ UsableC w k)
    (closer := CloserC w)
    (fun a b => by rw [← CrexTableID.closest_bufr_eq]; rfl)
    (fun a b _ => by rw [← CrexTableID.closest_crex_eq]; rfl) (by
      rintro tables b ⟨h1, h2, h3, h4⟩
      constructor
      · refine bestText_iff (fun e u hu hk => ?_) (fun x e => ?_)
        · cases hq : u.kind with
          | bufr id =>
            rw [hq] at hk
            have := h1 (by simpa using e) u hu id hq
            rw [show (CrexQuery w).acceptable_bufr id = w.is_acceptable_bufr id from rfl,
              (acceptableCB w id).mpr hk.2] at this
            cases this
          | crex id => rw [hq] at hk; exact hk.1
          | raw => rw [hq] at hk; exact hk.1
        · cases hb : b.bufr with
          | none => rw [hb] at e; cases e
          | some y =>
            rw [hb] at e
            cases e
            obtain ⟨e1, e2, e3, e4⟩ := h3 y.1 y.2 hb
            refine ⟨e1, by rw [e2]; exact ⟨trivial, (acceptableCB w y.1).mp e3⟩, fun u hm hu' hcl => ?_⟩
            cases hk : u.kind with
            | bufr id =>
              rw [hk] at hu' hcl
              rw [e2] at hcl
              have h5 := e4 u hm id hk ((acceptableCB w id).mpr hu'.2)
              have h6 : lexCmp (closenessCB w id) (closenessCB w y.1) < 0 := hcl
              have := lexCmp_neg (closenessCB w id) (closenessCB w y.1)
              omega
            | crex id => rw [hk] at hu'; exact hu'.1
            | raw => rw [hk] at hu'; exact hu'.1
      · refine bestText_iff (fun e u hu hk => ?_) (fun x e => ?_)
        · cases hq : u.kind with
          | crex id =>
            rw [hq] at hk
            have := h2 (by simpa using e) u hu id hq
            rw [show (CrexQuery w).acceptable_crex id = w.is_acceptable_crex id from rfl,
              (acceptableCC w id).mpr hk.2] at this
            cases this
          | bufr id => rw [hq] at hk; exact hk.1
          | raw => rw [hq] at hk; exact hk.1
        · cases hb : b.crex with
          | none => rw [hb] at e; cases e
          | some y =>
            rw [hb] at e
            cases e
            obtain ⟨e1, e2, e3, e4⟩ := h4 y.1 y.2 hb
            refine ⟨e1, by rw [e2]; exact ⟨trivial, (acceptableCC w y.1).mp e3⟩, fun u hm hu' hcl => ?_⟩
            cases hk : u.kind with
            | crex id =>
              rw [hk] at hu' hcl
              rw [e2] at hcl
              have h5 := e4 u hm id hk ((acceptableCC w id).mpr hu'.2)
              have h6 : lexCmp (closenessCC w id) (closenessCC w y.1) < 0 := hcl
              have := lexCmp_neg (closenessCC w id) (closenessCC w y.1)
              omega
            | bufr id => rw [hk] at hu'; exact hu'.1
            | raw => rw [hk] at hu'; exact hu'.1)
    (t.indexed names) (by
      rw [indexed_made hg]
      intro d hm
      obtain ⟨x, hx, rfl⟩ := List.mem_map.mp hm
      exact hd x hx) (Best.of_nil _ _ _)
  obtain ⟨steps, s1, s2⟩ := h
  refine ⟨steps, _, s2, ?_, ?_⟩
  · rw [indexed_made hg] at s1
    unfold spread at s1
    rw [List.flatMap_map] at s1
    exact s1
  · rw [(Tabledirs.find_crex_good hg w).1, indexed_made hg, List.map_map]
    exact chosen_iff _ _

/-- C120 with a table that is not usable, and two of which the second is closer. -/
example :
    let t := Tabledirs.after listingNames [.add (ascii "/usr"), .add (ascii "/opt")]
    (∀ d ∈ t.dirs, NulFree d) ∧
    (t.explain_find_bufr listingNames ⟨98, 0, 0, 13, 2⟩).1 = utf8 (
      "/usr: considering CREX(01, 00:00, 00:03:00:00): best bufr: none, best crex: none\n" ++
      "/opt: considering BUFR(098:00, 00:14:02): best bufr: BUFR(098:00, 00:14:02), best crex: none\n" ++
      "/opt: considering (raw data): best bufr: BUFR(098:00, 00:14:02), best crex: none\n" ++
      "Result chosen: BUFR(098:00, 00:14:02)\n") ∧
    (t.explain_find_crex listingNames ⟨1, 0, 0, 0, 3, 0, 0⟩).1 = utf8 (
      "/usr: considering CREX(01, 00:00, 00:03:00:00): best bufr: none, best crex: CREX(01, 00:00, 00:03:00:00)\n" ++
      "/opt: considering BUFR(098:00, 00:14:02): best bufr: BUFR(098:00, 00:14:02), best crex: CREX(01, 00:00, 00:03:00:00)\n" ++
      "/opt: considering (raw data): best bufr: BUFR(098:00, 00:14:02), best crex: CREX(01, 00:00, 00:03:00:00)\n" ++
      "Result chosen: CREX(01, 00:00, 00:03:00:00)\n") := by
  unfold NulFree
  decide +kernel

/-! ## C121 -/

/-- C121, in part: if both variables are set, `wrep` asked for information names the directories
that are searched, in that order; those that are there twice are searched once. Missing: when one is
not set, see `C121_not_unset`. -/
theorem C121_searched_partial (M : Wrep.Machine) {args files : List (List Byte)} {o : Wrep.Options}
    (hc : Command args .new o files) (ha : o.action = .info) (x y : List Byte)
    (hx : M.environ.extra = some x) (hy : M.environ.tables = some y) :
    Wrep.main M args = .ended (ascii "Tables search paths (tried in order):\n" ++
      ascii "Extra tables directory: " ++ x ++ ascii " (env var WREPORT_EXTRA_TABLES)\n" ++
      ascii "System tables directory: " ++ y ++ ascii " (env var WREPORT_TABLES)\n" ++
      ascii "Compiled-in default tables directory: " ++ M.environ.table_dir ++ ascii "\n", 0) ∧
    M.dirs = addedDirs [.add x, .add y, .add M.environ.table_dir] := by
  obtain ⟨h1, h2⟩ := Wrep.command_understood hc
  constructor
  · unfold Wrep.main
    simp only [h1, h2]
    rw [if_neg (by rw [ha]; nofun), if_pos ha]
    unfold Wrep.do_info
    rw [hx, hy]
    rfl
  · unfold Wrep.Machine.dirs
    rw [get_after M.S.names, C63_order, hx, hy]
    rfl

/-- C121: the directories that are searched are those of the variables that are set, and the
compiled-in one. -/
theorem C121_default_partial (names : List Byte → List (List Byte)) (e : Environ) :
    (Tabledirs.get e).dirs =
      addedDirs ((e.extra.toList ++ e.tables.toList ++ [e.table_dir]).map .add) := by
  rw [get_after names, C63_order]

/-- C121 does not hold: when one of the variables is not set, which is the usual case, a null
pointer is printed. -/
theorem C121_not_unset (M : Wrep.Machine) {args files : List (List Byte)} {o : Wrep.Options}
    (hc : Command args .new o files) (ha : o.action = .info)
    (h : M.environ.extra = none ∨ M.environ.tables = none) :
    Wrep.main M args = .undefined := by
  obtain ⟨h1, h2⟩ := Wrep.command_understood hc
  unfold Wrep.main
  simp only [h1, h2]
  rw [if_neg (by rw [ha]; nofun), if_pos ha]
  unfold Wrep.do_info
  rcases h with h | h
  · rw [h]; rfl
  · rw [h]
    cases M.environ.extra <;> rfl

/-- C121 with all variables set, to the same directory, and with one that is not set. -/
example : Command [ascii "-i"] .new { Wrep.Options.new with action := .info } [] ∧
    (Wrep.Machine.dirs { listingMachine with
      environ := ⟨some (ascii "/opt"), some (ascii "/opt/"), ascii "/usr"⟩ } = [ascii "/opt", ascii "/usr"]) ∧
    listingMachine.environ.extra = none := by
  refine ⟨.letter (e := (105, ascii "info", fun o => { o with action := .info }))
    (by simp [documented]) (by decide) .nil, ?_, rfl⟩
  decide +kernel

end Wreport
