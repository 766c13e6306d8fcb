import Verif.Props.Process
import Verif.Props.Safe
import Verif.Lemmas.Wellmade
import Verif.Lemmas.WrepPrint
import Verif.Lemmas.DecimalUnique
import Verif.Lemmas.Notes
import Verif.Props.Stream
import Verif.Props.Varcode
import Verif.Props.Format
import Verif.Spec.Wrep

/-!
# The runs of the program `wrep`
-/

namespace Wreport

open Spec Process

namespace Stream

theorem crexLoop_prefix (l : List Byte) : ∀ got pos b s, crexLoop got pos l = some (b, s) →
    l = b ++ s.rest ∧ ∀ t pos', crexLoop got pos' (b ++ t) = some (b, ⟨t, pos' + b.length⟩) := by
  induction l with
  | nil =>
    intro got pos b s h
    unfold crexLoop at h
    split at h
    · cases h
    · rename_i hg
      cases h
      refine ⟨rfl, fun t pos' => ?_⟩
      cases t <;> simp [crexLoop, hg]
  | cons c l ih =>
    intro got pos b s h
    unfold crexLoop at h
    split at h
    · rename_i hg
      obtain ⟨⟨b', s'⟩, h1, h2⟩ := Option.map_eq_some_iff.mp h
      cases h2
      obtain ⟨i1, i2⟩ := ih _ _ _ _ h1
      refine ⟨by simp [← i1], fun t pos' => ?_⟩
      simp only [List.cons_append, crexLoop, if_pos hg]
      rw [i2]
      simp
      omega
    · rename_i hg
      cases h
      refine ⟨rfl, fun t pos' => ?_⟩
      cases t <;> simp [crexLoop, hg]

/-- What a CREX read gives is a stretch of the stream, and reading it again gives it
again. -/
theorem readCrex_again {s s' : Stream} {m : Msg} (h : readCrex s = .ok (some (m, s'))) :
    m.1 ≠ [] ∧ (∃ f, s.rest = f ++ m.1 ++ s'.rest) ∧
    ∀ t pos, readCrex ⟨m.1 ++ t, pos⟩ = .ok (some ((m.1, pos), ⟨t, pos + m.1.length⟩)) := by
  unfold readCrex at h
  cases hs : s.seek_past_signature (ascii "CREX++") with
  | none => rw [hs] at h; cases h
  | some s1 =>
    rw [hs] at h
    obtain ⟨p, hp, -⟩ := C47_sound s s1 _ hs
    obtain ⟨r, hr, h⟩ := Res.bind_eq_ok.mp h
    cases h
    unfold readCrexBody at hr
    split at hr
    · cases hr
    rename_i r hl
    cases hr
    obtain ⟨i1, i2⟩ := crexLoop_prefix _ _ _ _ _ hl
    refine ⟨List.cons_ne_nil _ _, ⟨p, ?_⟩, fun t pos => ?_⟩
    · rw [hp, i1]
      simp
    · unfold readCrex seek_past_signature
      simp only
      rw [List.append_assoc, seekLoop_sig]
      simp only [readCrexBody, i2]
      have e6 : (ascii "CREX++").length = 6 := rfl
      simp only [Res.ok_bind, Res.pure_def, List.length_append, e6]
      simp only [Res.ok.injEq, Option.some.injEq, Prod.mk.injEq, Stream.mk.injEq, true_and]
      exact ⟨by omega, by omega⟩

theorem readBufr_again {s s' : Stream} {m : Msg} (h : readBufr s = .ok (some (m, s'))) :
    m.1 ≠ [] ∧ (∃ f, s.rest = f ++ m.1 ++ s'.rest) ∧
    ∀ t pos, readBufr ⟨m.1 ++ t, pos⟩ = .ok (some ((m.1, pos), ⟨t, pos + m.1.length⟩)) := by
  obtain ⟨h1, f, h2, -⟩ := C46_read_sound s s' m.1 m.2 h
  refine ⟨?_, ⟨f, h2⟩, fun t pos => ?_⟩
  · obtain ⟨a, b, c, t, e, -⟩ := h1
    rw [e]
    exact List.cons_ne_nil _ _
  · have := readBufr_message [] m.1 t pos (fun _ h => by cases h) h1
    simpa using this

theorem readOf_again {crex : Bool} {s s' : Stream} {m : Msg}
    (h : readOf crex s = .ok (some (m, s'))) :
    m.1 ≠ [] ∧ s'.rest.length < s.rest.length ∧
    ∀ t pos, readOf crex ⟨m.1 ++ t, pos⟩ = .ok (some ((m.1, pos), ⟨t, pos + m.1.length⟩)) := by
  have key : m.1 ≠ [] ∧ (∃ f, s.rest = f ++ m.1 ++ s'.rest) ∧
      ∀ t pos, readOf crex ⟨m.1 ++ t, pos⟩ = .ok (some ((m.1, pos), ⟨t, pos + m.1.length⟩)) := by
    cases crex with
    | true => exact readCrex_again h
    | false => exact readBufr_again h
  obtain ⟨h1, ⟨f, h2⟩, h3⟩ := key
  refine ⟨h1, ?_, h3⟩
  rw [h2]
  have := List.length_pos_iff.mpr h1
  simp only [List.length_append]
  omega

theorem readOf_defined (crex : Bool) (s : Stream) : readOf crex s ≠ .ub := by
  unfold readOf
  split
  · unfold readCrex
    split
    · simp
    · unfold readCrexBody
      split <;> simp
  · unfold readBufr
    split
    · simp
    · unfold readBufrBody fread
      simp only
      split
      · simp only [Res.ok_bind]
        split
        · simp
        · split <;> simp
      · simp

theorem readOf_empty (crex : Bool) (pos : Nat) : readOf crex ⟨[], pos⟩ = .ok none := by
  cases crex <;> rfl

theorem reads_total (crex : Bool) (s : Stream) : ∃ ms, ReadsUpTo (readOf crex) s ms := by
  generalize hn : s.rest.length = n
  induction n using Nat.strongRecOn generalizing s with
  | _ n ih =>
    cases h : readOf crex s with
    | ub => exact absurd h (readOf_defined _ _)
    | err e => exact ⟨[], .failed _ _ h⟩
    | ok r =>
      cases r with
      | none => exact ⟨[], .done _ h⟩
      | some r =>
        obtain ⟨ms, hm⟩ := ih _ (by rw [← hn]; exact (readOf_again h).2.1) r.2 rfl
        exact ⟨_, .more _ _ _ _ h hm⟩

theorem reads_unique {read : Stream → Res (Option (Msg × Stream))} {s : Stream}
    {a b : List Msg} (ha : ReadsUpTo read s a) (hb : ReadsUpTo read s b) : a = b := by
  induction ha generalizing b with
  | done s h =>
    cases hb with
    | done => rfl
    | failed => rfl
    | more _ _ _ _ h' => rw [h] at h'; simp at h'
  | failed s e h =>
    cases hb with
    | done => rfl
    | failed => rfl
    | more _ _ _ _ h' => rw [h] at h'; simp at h'
  | more s s' m ms h _ ih =>
    cases hb with
    | done _ h' => rw [h] at h'; simp at h'
    | failed _ _ h' => rw [h] at h'; simp at h'
    | more _ s2 m2 ms2 h' hr =>
      rw [h] at h'
      simp only [Res.ok.injEq, Option.some.injEq, Prod.mk.injEq] at h'
      obtain ⟨rfl, rfl⟩ := h'
      rw [ih hr]

/-- A file made of messages that were read holds just them. -/
theorem reads_again {crex : Bool} (l : List (List Byte))
    (h : ∀ m ∈ l, m ≠ [] ∧ ∀ t pos, readOf crex ⟨m ++ t, pos⟩ =
      .ok (some ((m, pos), ⟨t, pos + m.length⟩))) (pos : Nat) :
    ∃ ms, ReadsUpTo (readOf crex) ⟨l.flatten, pos⟩ ms ∧ ms.map Prod.fst = l := by
  induction l generalizing pos with
  | nil => exact ⟨[], .done _ (readOf_empty _ _), rfl⟩
  | cons m l ih =>
    obtain ⟨ms, h1, h2⟩ := ih (fun x hx => h x (List.mem_cons_of_mem _ hx)) (pos + m.length)
    exact ⟨_, .more _ _ _ _ ((h m (by simp)).2 _ _) h1, by simp [h2]⟩

end Stream

namespace Wrep

theorem Ran.andThen_ended {α β : Type} {r : Ran α} {f : α → Ran β} {b : β} :
    r.andThen f = .ended b ↔ ∃ a, r = .ended a ∧ f a = .ended b := by
  cases r <;> simp [Ran.andThen]

theorem Ran.andThen_assoc {α β γ : Type} (r : Ran α) (f : α → Ran β) (g : β → Ran γ) :
    (r.andThen f).andThen g = r.andThen fun a => (f a).andThen g := by
  cases r <;> rfl

theorem Ran.ended_andThen {α β : Type} (a : α) (f : α → Ran β) : (Ran.ended a).andThen f = f a := rfl

/-- Doing something for each of a list. -/
def gather {α : Type} (g : α → Ran (List Byte)) : List α → Ran (List Byte)
  | [] => .ended []
  | a :: as => (g a).andThen fun x => (gather g as).andThen fun y => .ended (x ++ y)

theorem gather_ended {α : Type} {g : α → Ran (List Byte)} {l : List α} {out : List Byte} :
    gather g l = .ended out ↔
      ∃ outs, List.Forall₂ (fun a x => g a = .ended x) l outs ∧ out = outs.flatten := by
  induction l generalizing out with
  | nil =>
    simp only [gather, Ran.ended.injEq, List.forall₂_nil_left_iff]
    exact ⟨fun h => ⟨[], rfl, by simp [h]⟩, fun ⟨_, h1, h2⟩ => by rw [h2, h1]; rfl⟩
  | cons a l ih =>
    simp only [gather, Ran.andThen_ended, Ran.ended.injEq]
    constructor
    · rintro ⟨x, h1, y, h2, rfl⟩
      obtain ⟨outs, h3, rfl⟩ := ih.mp h2
      exact ⟨x :: outs, .cons h1 h3, rfl⟩
    · rintro ⟨outs, h1, rfl⟩
      cases h1 with
      | cons h1 h2 => exact ⟨_, h1, _, ih.mpr ⟨_, h2, rfl⟩, rfl⟩

/-- The same with a flag that is handed on. -/
def gatherS {α : Type} (g : Bool → α → Ran (Bool × List Byte)) : Bool → List α → Ran (Bool × List Byte)
  | b, [] => .ended (b, [])
  | b, a :: as => (g b a).andThen fun x => (gatherS g x.1 as).andThen fun y => .ended (y.1, x.2 ++ y.2)

theorem gatherS_append {α : Type} (g : Bool → α → Ran (Bool × List Byte)) (b : Bool) (l l' : List α) :
    gatherS g b (l ++ l') = (gatherS g b l).andThen fun x => (gatherS g x.1 l').andThen fun y =>
      .ended (y.1, x.2 ++ y.2) := by
  induction l generalizing b with
  | nil =>
    simp only [List.nil_append, gatherS, Ran.andThen]
    cases gatherS g b l' <;> rfl
  | cons a l ih =>
    simp only [List.cons_append, gatherS, ih, Ran.andThen_assoc, Ran.ended_andThen, List.append_assoc]

theorem gatherS_map {α β : Type} (g : Bool → β → Ran (Bool × List Byte)) (f : α → β) (b : Bool)
    (l : List α) : gatherS g b (l.map f) = gatherS (fun b a => g b (f a)) b l := by
  induction l generalizing b with
  | nil => rfl
  | cons a l ih => simp only [List.map_cons, gatherS, ih]

/-- A flag that nobody looks at. -/
theorem gatherS_free {α : Type} {g : Bool → α → Ran (Bool × List Byte)} {g' : α → Ran (List Byte)}
    (h : ∀ b a, g b a = (g' a).andThen fun out => .ended (b, out)) (b : Bool) (l : List α) :
    gatherS g b l = (gather g' l).andThen fun out => .ended (b, out) := by
  induction l with
  | nil => rfl
  | cons a l ih =>
    simp only [gatherS, gather, h, Ran.andThen_assoc]
    congr 1
    funext x
    simp only [Ran.andThen, ih]
    cases gather g' l <;> rfl

/-- What is written about a message by itself, but for the titles of tables. -/
def about (M : Machine) (o : Options) (fname : List Byte) (m : Stream.Msg) : Ran (List Byte) :=
  match o.action with
  | .unparsable => copyUnparsable m.1 (decode M o.crex (.fresh M.dirs) m.1).2
  | .printVars => printSelected M fname o.varcodes (decode M o.crex (.fresh M.dirs) m.1).2
  | .features => printFeatures M fname m.2 (readHead M o.crex (.fresh M.dirs) m.1).2
  | .dump => printContents M (.fresh M.dirs) fname m.1 m.2 (readWhole M o.crex (.fresh M.dirs) m.1).2
  | .dumpStructure =>
    printStructure M (.fresh M.dirs) fname m.1 m.2 (readWhole M o.crex (.fresh M.dirs) m.1).2
  | .dumpDds => printDds M (.fresh M.dirs) fname m.1 (readHead M o.crex (.fresh M.dirs) m.1).2
  | .trace => if o.crex then traceCrex (decode M o.crex (.fresh M.dirs) m.1).2
      else printed M .trace fname m.1 (traceText M (.fresh M.dirs) m.1)
  | _ => .ended []

/-- What is written about a message, when titles have been written or not. -/
def aboutS (M : Machine) (o : Options) (fname : List Byte) (b : Bool) (m : Stream.Msg) :
    Ran (Bool × List Byte) :=
  if o.action = .tables then printTables fname m.2 b (readHead M o.crex (.fresh M.dirs) m.1).2
  else (about M o fname m).andThen fun out => .ended (b, out)

/-- A process of the program. -/
structure Good (M : Machine) (p : Process) : Prop where
  inv : p.Inv M.S
  dirs : p.dirs.dirs = M.dirs

theorem fresh_good (M : Machine) : Good M (.fresh M.dirs) := ⟨fresh_inv _ _, rfl⟩

theorem decode_good {M : Machine} {p : Process} (h : Good M p) (crex : Bool) (raw : List Byte) :
    Good M (decode M crex p raw).1 ∧
    (decode M crex p raw).2 = (decode M crex (.fresh M.dirs) raw).2 := by
  unfold decode
  cases crex with
  | true =>
    simp only [if_true]
    obtain ⟨h1, h2⟩ := decodeCrex_near h.inv M.O M.depth M.fuel raw
    refine ⟨⟨h1, ?_⟩, by rw [h2, h.dirs]⟩
    unfold decodeCrex
    simp only
    split
    · rw [load_crex_dirs, h.dirs]
    · exact h.dirs
  | false =>
    simp only [Bool.false_eq_true, if_false]
    obtain ⟨h1, h2⟩ := decodeBufr_near h.inv M.O false M.depth raw
    refine ⟨⟨h1, ?_⟩, by rw [h2, h.dirs]⟩
    unfold decodeBufr
    simp only
    split
    · rw [load_bufr_dirs, h.dirs]
    · exact h.dirs

/-- Headers that are the same with tables that answer alike. -/
def NearHead (r r' : Option (Res (Head × Ctx × TableCaches))) : Prop :=
  match r with
  | none => r' = none
  | some x => ∃ x', r' = some x' ∧ Near (fun a b => b.1 = a.1 ∧ NearCtx a.2 b.2) x x'

theorem near_head {r r' : Res (Ctx × TableCaches)} (h : Near NearCtx r r') (k : Head) :
    Near (fun a b => b.1 = a.1 ∧ NearCtx a.2 b.2)
      (do let t ← r; return (k, t)) (do let t ← r'; return (k, t)) := by
  cases r with
  | ok t =>
    obtain ⟨t', rfl, h2⟩ := h
    exact ⟨_, rfl, rfl, h2⟩
  | err e =>
    simp only [Near] at h
    subst h
    rfl
  | ub =>
    simp only [Near] at h
    subst h
    rfl

theorem readHead_good {M : Machine} {p : Process} (h : Good M p) (crex : Bool) (raw : List Byte) :
    Good M (readHead M crex p raw).1 ∧
    NearHead (readHead M crex (.fresh M.dirs) raw).2 (readHead M crex p raw).2 := by
  unfold readHead
  cases crex with
  | true =>
    simp only [if_true]
    obtain ⟨h1, h2⟩ := decodeCrex_near h.inv M.O M.depth M.fuel raw
    refine ⟨⟨h1, ?_⟩, ?_⟩
    · unfold decodeCrex
      simp only
      split
      · rw [load_crex_dirs, h.dirs]
      · exact h.dirs
    · rw [h2, h.dirs]
      rcases (decodeCrex M.S (.fresh M.dirs) M.O M.depth M.fuel raw).2 with - | (y | e | -)
      · rfl
      · have := (load_crex_near h.inv M.O .new (crexId y.1)).2
        rw [h.dirs] at this
        exact ⟨_, rfl, near_head this _⟩
      · exact ⟨_, rfl, rfl⟩
      · exact ⟨_, rfl, rfl⟩
  | false =>
    simp only [Bool.false_eq_true, if_false]
    cases BufrDec.decode_header raw with
    | ok hd =>
      have := load_bufr_near h.inv M.O .new (bufrId hd.header)
      refine ⟨⟨this.1, by rw [load_bufr_dirs, h.dirs]⟩, _, rfl, near_head ?_ _⟩
      have := this.2
      rwa [h.dirs] at this
    | err e => exact ⟨h, _, rfl, rfl⟩
    | ub => exact ⟨h, _, rfl, rfl⟩

theorem printTables_near {r r' : Option (Res (Head × Ctx × TableCaches))} (h : NearHead r r')
    (fname : List Byte) (offset : Nat) (b : Bool) :
    printTables fname offset b r' = printTables fname offset b r := by
  rcases r with - | (⟨k, t⟩ | e | -)
  · simp only [NearHead] at h
    rw [h]
  all_goals
    obtain ⟨x', rfl, h2⟩ := h
    simp only [Near] at h2
  · obtain ⟨⟨k', t'⟩, rfl, rfl, -⟩ := h2
    rfl
  · rw [h2]
  · rw [h2]

theorem printFeatures_near {M : Machine} {r r' : Option (Res (Head × Ctx × TableCaches))}
    (h : NearHead r r') (fname : List Byte) (offset : Nat) :
    printFeatures M fname offset r' = printFeatures M fname offset r := by
  rcases r with - | (⟨k, C, c⟩ | e | -)
  · simp only [NearHead] at h
    rw [h]
  all_goals
    obtain ⟨x', rfl, h2⟩ := h
    simp only [Near] at h2
  · obtain ⟨⟨k', C', c'⟩, rfl, rfl, h1, h2⟩ := h2
    simp only at h1 h2
    subst h2
    simp only [printFeatures, Scan.features_alike h1]
  · rw [h2]
  · rw [h2]

theorem readWhole_good {M : Machine} {p : Process} (h : Good M p) (crex : Bool) (raw : List Byte) :
    Good M (readWhole M crex p raw).1 ∧
    (readWhole M crex p raw).2 = (readWhole M crex (.fresh M.dirs) raw).2 := by
  have hd := (decode_good h crex raw).1
  unfold decode at hd
  unfold readWhole
  cases crex with
  | true =>
    simp only [if_true] at hd ⊢
    exact ⟨hd, by rw [(decodeCrex_near h.inv M.O M.depth M.fuel raw).2, h.dirs]⟩
  | false =>
    simp only [Bool.false_eq_true, if_false] at hd ⊢
    exact ⟨hd, by rw [(decodeBufr_near h.inv M.O false M.depth raw).2, h.dirs]⟩

theorem loaded_named {M : Machine} {p : Process} (h : Good M p) (k : Head) :
    (loaded M p k).2.1.named = (loaded M (.fresh M.dirs) k).2.1.named := by
  cases k with
  | bufr y => exact (load_bufr_named h.inv .new _).trans (by rw [h.dirs]; rfl)
  | crex y => exact (load_crex_named h.inv .new _).trans (by rw [h.dirs]; rfl)

theorem loaded_near {M : Machine} {p : Process} (h : Good M p) (k : Head) :
    Near NearCtx (context M.S M.O (loaded M (.fresh M.dirs) k)) (context M.S M.O (loaded M p k)) := by
  cases k with
  | bufr y => have := (load_bufr_near h.inv M.O .new (bufrId y)).2; rwa [h.dirs] at this
  | crex y => have := (load_crex_near h.inv M.O .new (crexId y)).2; rwa [h.dirs] at this

theorem printContents_good {M : Machine} {p : Process} (h : Good M p) (fname raw : List Byte)
    (offset : Nat) (r : Option (Res (Head × List (List Var)))) :
    printContents M p fname raw offset r = printContents M (.fresh M.dirs) fname raw offset r := by
  rcases r with - | (⟨k, ss⟩ | e | -)
  · rfl
  · simp only [printContents, print_named (loaded_named h k), tablePath_named (loaded_named h k)]
  · rfl
  · rfl

theorem structureText_good {M : Machine} {p : Process} (h : Good M p) (fname : List Byte)
    (offset : Nat) (k : Head) (ss : List (List Var)) :
    structureText M p fname offset k ss = structureText M (.fresh M.dirs) fname offset k ss := by
  unfold structureText
  simp only [head_named (loaded_named h k), tablePath_named (loaded_named h k)]
  have hn := loaded_near h k
  cases hl : context M.S M.O (loaded M (.fresh M.dirs) k) with
  | err e => rw [hl] at hn; simp only [Near] at hn; rw [hn]
  | ub => rw [hl] at hn; simp only [Near] at hn; rw [hn]
  | ok a =>
    rw [hl] at hn
    obtain ⟨⟨D, c⟩, hb, h1, h2⟩ := hn
    obtain ⟨C, c0⟩ := a
    simp only at h1 h2
    subst h2
    rw [hb]
    simp only [Res.ok_bind, DDSPrinter.printSubsets_alike h1]

theorem printStructure_good {M : Machine} {p : Process} (h : Good M p) (fname raw : List Byte)
    (offset : Nat) (r : Option (Res (Head × List (List Var)))) :
    printStructure M p fname raw offset r = printStructure M (.fresh M.dirs) fname raw offset r := by
  rcases r with - | (⟨k, ss⟩ | e | -)
  · rfl
  · simp only [printStructure, structureText_good h]
  · rfl
  · rfl

theorem printDds_near {M : Machine} {p : Process} (hp : Good M p)
    {r r' : Option (Res (Head × Ctx × TableCaches))} (h : NearHead r r') (fname raw : List Byte) :
    printDds M p fname raw r' = printDds M (.fresh M.dirs) fname raw r := by
  rcases r with - | (⟨k, C, c⟩ | e | -)
  · simp only [NearHead] at h
    rw [h]
    rfl
  all_goals
    obtain ⟨x', rfl, h2⟩ := h
    simp only [Near] at h2
  · obtain ⟨⟨k', C', c'⟩, rfl, rfl, h1, h2⟩ := h2
    simp only at h1 h2
    subst h2
    simp only [printDds, tablePath_named (loaded_named hp k'), texts_alike h1,
      Printer.print_datadesc_alike h1]
  · rw [h2]
    rfl
  · rw [h2]
    rfl

theorem traceText_good {M : Machine} {p : Process} (h : Good M p) (raw : List Byte) :
    traceText M p raw = traceText M (.fresh M.dirs) raw := by
  unfold traceText
  cases BufrDec.decode_header raw with
  | err e => rfl
  | ub => rfl
  | ok hd =>
    simp only [tablePath_named (loaded_named h (.bufr hd.header))]
    have e := fun X => Verbose.decodeMessage_near
      (load := fun y => context M.S M.O ((fresh M.dirs).load_bufr M.S .new (bufrId y)))
      (load' := fun y => context M.S M.O (p.load_bufr M.S .new (bufrId y)))
      (fun y => loaded_near h (.bufr y)) X false M.depth raw
    rw [e]

theorem handle_good {M : Machine} {s : Run} (h : Good M s.process) (o : Options)
    (fname : List Byte) (m : Stream.Msg) :
    ∃ p', Good M p' ∧ handle M o fname s m =
      (aboutS M o fname s.header_printed m).andThen fun r => .ended (⟨p', r.1⟩, r.2) := by
  obtain ⟨h1, h2⟩ := decode_good h o.crex m.1
  obtain ⟨h3, h4⟩ := readHead_good h o.crex m.1
  obtain ⟨h5, h6⟩ := readWhole_good h o.crex m.1
  unfold handle aboutS about
  rw [← h2, ← h6]
  cases o.action
  case dump =>
    exact ⟨_, h5, by rw [if_neg (by nofun), Ran.andThen_assoc]; simp only [printContents_good h]; rfl⟩
  case dumpStructure =>
    exact ⟨_, h5, by rw [if_neg (by nofun), Ran.andThen_assoc]; simp only [printStructure_good h]; rfl⟩
  case dumpDds =>
    exact ⟨_, h3, by rw [if_neg (by nofun), Ran.andThen_assoc]; simp only [printDds_near h h4]; rfl⟩
  case unparsable => exact ⟨_, h1, by rw [if_neg (by nofun), Ran.andThen_assoc]; rfl⟩
  case printVars => exact ⟨_, h1, by rw [if_neg (by nofun), Ran.andThen_assoc]; rfl⟩
  case tables => exact ⟨_, h3, by simp only [if_true, printTables_near h4]⟩
  case features =>
    exact ⟨_, h3, by rw [if_neg (by nofun), Ran.andThen_assoc]; simp only [printFeatures_near h4]; rfl⟩
  case trace =>
    cases hx : o.crex with
    | true => rw [hx] at h1; exact ⟨_, h1, by simp only [if_true, if_neg (show ¬Action.trace = Action.tables by nofun), Ran.andThen_assoc]; rfl⟩
    | false =>
      rw [hx] at h1
      exact ⟨_, h1, by simp only [Bool.false_eq_true, if_false, if_neg (show ¬Action.trace = Action.tables by nofun), Ran.andThen_assoc, traceText_good h]; rfl⟩
  all_goals exact ⟨s.process, h, rfl⟩

theorem readLoop_good {M : Machine} (o : Options) (fname : List Byte) {s : Stream}
    {ms : List Stream.Msg} (hm : ReadsUpTo (Stream.readOf o.crex) s ms) {p : Run}
    (h : Good M p.process) (n : Nat) (hn : s.rest.length < n) :
    ∃ p', Good M p' ∧ readLoop M o fname n p s =
      (gatherS (aboutS M o fname) p.header_printed ms).andThen
        fun r => .ended (⟨p', r.1⟩, r.2) := by
  induction hm generalizing p n with
  | done s e =>
    cases n with
    | zero => omega
    | succ n =>
      refine ⟨p.process, h, ?_⟩
      unfold readLoop
      unfold Stream.readOf at e
      rw [e]
      rfl
  | failed s _ e =>
    cases n with
    | zero => omega
    | succ n =>
      refine ⟨p.process, h, ?_⟩
      unfold readLoop
      unfold Stream.readOf at e
      rw [e]
      rfl
  | more s s' m ms e _ ih =>
    cases n with
    | zero => omega
    | succ n =>
      have hl := (Stream.readOf_again e).2.1
      obtain ⟨p1, h1, e1⟩ := handle_good h o fname m
      unfold readLoop
      unfold Stream.readOf at e
      simp only [e, e1, gatherS]
      cases aboutS M o fname p.header_printed m with
      | ended a =>
        obtain ⟨p2, h2, e2⟩ := ih (p := ⟨p1, a.1⟩) h1 n (by omega)
        refine ⟨p2, h2, ?_⟩
        simp only [Ran.andThen]
        rw [e2]
        cases gatherS _ a.1 ms <;> rfl
      | _ => exact ⟨p1, h1, rfl⟩

/-- What is written about a file. -/
theorem readFiles_eq {M : Machine} (o : Options) (fs : List (List Byte)) {mss : List (List Stream.Msg)}
    (hm : List.Forall₂ (fun f ms => FileHolds (Stream.readOf o.crex) (M.inputs f) ms) fs mss)
    {p : Run} (h : Good M p.process) :
    readFiles M o p fs =
      (gatherS (fun b (x : List Byte × Stream.Msg) => aboutS M o x.1 b x.2) p.header_printed
        (named fs mss)).andThen fun r => .ended r.2 := by
  induction hm generalizing p with
  | nil => rfl
  | @cons f ms fs mss hf _ ih =>
    unfold readFiles
    unfold FileHolds at hf
    split at hf
    · rename_i hi
      rw [hi]
      subst hf
      simp only [named, List.map_nil, List.nil_append]
      rw [ih h]
    · rename_i data hi
      rw [hi]
      obtain ⟨p', h1, e⟩ := readLoop_good (M := M) o f hf h (data.length + 1) (by simp)
      simp only [named, gatherS_append, gatherS_map]
      rw [e, Ran.andThen_assoc, Ran.andThen_assoc]
      congr 1
      funext x
      simp only [Ran.andThen]
      rw [ih (p := ⟨p', x.1⟩) h1]
      simp only
      cases gatherS _ x.1 (named fs mss) <;> rfl

theorem afterComma_text {s : List Byte} (h : 44 ∉ s) (r : List Byte) :
    afterComma (s ++ 44 :: r) = some r ∧ afterComma s = none := by
  induction s with
  | nil => exact ⟨rfl, rfl⟩
  | cons c s ih =>
    simp only [List.mem_cons, not_or] at h
    obtain ⟨h1, h2⟩ := ih h.2
    have hc : ¬ c = 44 := fun e => h.1 e.symm
    simp [afterComma, hc, h1, h2]

theorem text_plain {s : List Byte} {f x y : Nat} (h : IsDescriptorText s f x y) :
    s.length = 6 ∧ 44 ∉ s := by
  obtain ⟨c, d1, d2, d3, d4, d5, rfl, hc, hd, -⟩ := h
  refine ⟨rfl, fun hm => ?_⟩
  rcases List.mem_cons.mp hm with rfl | hm
  · cases hc
  · have := hd _ hm
    revert this
    decide

theorem codeList_length {s : List Byte} {cs : List Varcode} (h : CodeList s cs) : 6 ≤ s.length := by
  cases h with
  | one h => rw [(text_plain h).1]
  | more h _ =>
    simp only [List.length_append, (text_plain h).1]
    omega

theorem varcodeLoop_list {s : List Byte} {cs : List Varcode} (h : CodeList s cs) (n : Nat)
    (hn : s.length ≤ n) : varcodeLoop n s = .ok cs := by
  induction h generalizing n with
  | @one s f x y h =>
    obtain ⟨h1, h2⟩ := text_plain h
    cases n with
    | zero => omega
    | succ n =>
      unfold varcodeLoop
      have := C02_parse_canonical_partial s [] f x y h
      rw [List.append_nil] at this
      rw [if_neg (by omega), this, Res.ok_bind, (afterComma_text h2 []).2]
      rfl
  | @more s t f x y cs h _ ih =>
    obtain ⟨h1, h2⟩ := text_plain h
    simp only [List.length_append, h1, show (ascii ",").length = 1 from rfl] at hn
    cases n with
    | zero => omega
    | succ n =>
      unfold varcodeLoop
      rw [List.append_assoc, C02_parse_canonical_partial s _ f x y h, Res.ok_bind,
        if_neg (by simp only [List.length_append]; omega)]
      show (match afterComma (s ++ 44 :: t) with | none => _ | some s => _) = _
      rw [(afterComma_text h2 t).1]
      simp only [ih n (by omega), Res.ok_bind, Res.pure_def]

theorem documented_letter {e : Byte × List Byte × (Options → Options)} (h : e ∈ documented)
    (hh : e.1 ≠ 104) :
    classify [45, e.1] = .options [(e.1, none)] none ∧ ∀ o, option o (e.1, none) = .ok (some (e.2.2 o)) := by
  simp only [documented, List.mem_cons, List.not_mem_nil, or_false] at h
  rcases h with rfl | rfl | rfl | rfl | rfl | rfl | rfl | rfl | rfl | rfl | rfl | rfl
  case inr.inr.inl => exact absurd rfl hh
  all_goals exact ⟨rfl, fun _ => rfl⟩

theorem documented_name {e : Byte × List Byte × (Options → Options)} (h : e ∈ documented) :
    classify (ascii "--" ++ e.2.1) = .options [(e.1, none)] none ∧
    ∀ o, option o (e.1, none) = .ok (some (e.2.2 o)) := by
  simp only [documented, List.mem_cons, List.not_mem_nil, or_false] at h
  rcases h with rfl | rfl | rfl | rfl | rfl | rfl | rfl | rfl | rfl | rfl | rfl | rfl
  all_goals exact ⟨rfl, fun _ => rfl⟩

theorem classify_file {f : List Byte} (h : f.head? ≠ some 45) : classify f = .file := by
  unfold classify
  split
  · exact absurd rfl h
  · exact absurd rfl h
  · exact absurd rfl h
  · rfl

/-- A command line is understood. -/
theorem command_understood {args files : List (List Byte)} {o o' : Options}
    (h : Command args o o' files) :
    options o (getopt none args).1 = .ok (some o') ∧ (getopt none args).2 = files := by
  induction h with
  | nil => exact ⟨rfl, rfl⟩
  | letter he hh _ ih =>
    obtain ⟨h1, h2⟩ := documented_letter he hh
    unfold getopt
    simp only [h1]
    refine ⟨?_, ih.2⟩
    simp only [List.cons_append, List.nil_append]
    unfold options
    rw [h2, Res.ok_bind]
    exact ih.1
  | name he _ ih =>
    obtain ⟨h1, h2⟩ := documented_name he
    unfold getopt
    simp only [h1]
    refine ⟨?_, ih.2⟩
    simp only [List.cons_append, List.nil_append]
    unfold options
    rw [h2, Res.ok_bind]
    exact ih.1
  | @print s cs args files o o' hc _ ih =>
    have h1 : classify (ascii "--print=" ++ s) = .options [(112, some s)] none := rfl
    unfold getopt
    simp only [h1]
    refine ⟨?_, ih.2⟩
    simp only [List.cons_append, List.nil_append]
    unfold options
    have : option o (112, some s) = .ok (some { o with action := .printVars, varcodes := cs }) := by
      show (varcodeLoop s.length s >>= _) = _
      rw [varcodeLoop_list hc _ (le_refl _), Res.ok_bind]
      rfl
    rw [this, Res.ok_bind]
    exact ih.1
  | @printNext s cs args files o o' hc _ ih =>
    have h1 : classify (ascii "--print") = .options [] (some 112) := rfl
    unfold getopt
    simp only [h1]
    unfold getopt
    simp only [List.nil_append]
    refine ⟨?_, ih.2⟩
    unfold options
    have : option o (112, some s) = .ok (some { o with action := .printVars, varcodes := cs }) := by
      show (varcodeLoop s.length s >>= _) = _
      rw [varcodeLoop_list hc _ (le_refl _), Res.ok_bind]
      rfl
    rw [this, Res.ok_bind]
    exact ih.1
  | file hf _ ih =>
    unfold getopt
    simp only [classify_file hf]
    exact ⟨ih.1, by rw [ih.2]⟩
  | stop =>
    unfold getopt
    exact ⟨rfl, rfl⟩

theorem holds_total (crex : Bool) (inputs : List Byte → Option (List Byte)) (fs : List (List Byte)) :
    ∃ mss, List.Forall₂ (fun f ms => FileHolds (Stream.readOf crex) (inputs f) ms) fs mss := by
  induction fs with
  | nil => exact ⟨[], .nil⟩
  | cons f fs ih =>
    obtain ⟨mss, h⟩ := ih
    cases hi : inputs f with
    | none => exact ⟨[] :: mss, .cons (by rw [hi]; exact rfl) h⟩
    | some data =>
      obtain ⟨ms, hm⟩ := Stream.reads_total crex ⟨data, 0⟩
      exact ⟨ms :: mss, .cons (by rw [hi]; exact hm) h⟩

theorem holds_again {crex : Bool} {file : Option (List Byte)} {ms : List Stream.Msg}
    (h : FileHolds (Stream.readOf crex) file ms) (m : Stream.Msg) (hm : m ∈ ms) :
    m.1 ≠ [] ∧ ∀ t pos, Stream.readOf crex ⟨m.1 ++ t, pos⟩ =
      .ok (some ((m.1, pos), ⟨t, pos + m.1.length⟩)) := by
  unfold FileHolds at h
  split at h
  · subst h; cases hm
  · rename_i data
    generalize (⟨data, 0⟩ : Stream) = s at h
    induction h with
    | done => cases hm
    | failed => cases hm
    | more s s' m' ms e _ ih =>
      rcases List.mem_cons.mp hm with rfl | hm
      · exact ⟨(Stream.readOf_again e).1, (Stream.readOf_again e).2.2⟩
      · exact ih hm

theorem holds_unique {crex : Bool} {file : Option (List Byte)} {a b : List Stream.Msg}
    (ha : FileHolds (Stream.readOf crex) file a) (hb : FileHolds (Stream.readOf crex) file b) :
    a = b := by
  unfold FileHolds at ha hb
  cases file with
  | none => rw [ha, hb]
  | some data => exact Stream.reads_unique ha hb

theorem main_reads (M : Machine) {args files : List (List Byte)} {o : Options}
    (hc : Command args .new o files)
    (ha : o.action ≠ .help ∧ o.action ≠ .info ∧ o.action ≠ .listTables) (hf : files ≠ []) :
    main M args = (readFiles M o ⟨.fresh M.dirs, false⟩ files).andThen fun out => .ended (out, 0) := by
  obtain ⟨h1, h2⟩ := command_understood hc
  unfold main
  simp only [h1, h2]
  rw [if_neg ha.1, if_neg ha.2.1, if_neg ha.2.2, if_neg hf]

/-- What is written, message by message. -/
theorem readFiles_gather {M : Machine} {o : Options} {files : List (List Byte)} {out : List Byte} :
    readFiles M o ⟨.fresh M.dirs, false⟩ files = .ended out ↔
      ∃ mss, List.Forall₂ (fun f ms => FileHolds (Stream.readOf o.crex) (M.inputs f) ms) files mss ∧
      ∃ b, gatherS (fun b (x : List Byte × Stream.Msg) => aboutS M o x.1 b x.2) false
        (named files mss) = .ended (b, out) := by
  obtain ⟨mss, hm⟩ := holds_total o.crex M.inputs files
  have e := readFiles_eq (M := M) o files hm (p := ⟨.fresh M.dirs, false⟩) (fresh_good M)
  rw [e, Ran.andThen_ended]
  constructor
  · rintro ⟨⟨b, out'⟩, h1, h2⟩
    cases h2
    exact ⟨mss, hm, b, h1⟩
  · rintro ⟨mss', hm', b, h1⟩
    have : mss' = mss := by
      clear e h1
      induction hm' generalizing mss with
      | nil => cases hm; rfl
      | cons h _ ih =>
        cases hm with
        | cons h' hm => rw [holds_unique h h', ih _ hm]
    subst this
    exact ⟨_, h1, rfl⟩

/-- The same for actions without titles. -/
theorem readFiles_ended {M : Machine} {o : Options} (ha : o.action ≠ .tables)
    {files : List (List Byte)} {out : List Byte} :
    readFiles M o ⟨.fresh M.dirs, false⟩ files = .ended out ↔
      ∃ mss, List.Forall₂ (fun f ms => FileHolds (Stream.readOf o.crex) (M.inputs f) ms) files mss ∧
      ∃ outs, List.Forall₂ (fun (x : List Byte × Stream.Msg) t => about M o x.1 x.2 = .ended t)
        (named files mss) outs ∧ out = outs.flatten := by
  rw [readFiles_gather]
  refine exists_congr fun mss => and_congr_right fun _ => ?_
  have := gatherS_free (g := fun b (x : List Byte × Stream.Msg) => aboutS M o x.1 b x.2)
    (g' := fun x => about M o x.1 x.2) (fun b x => by unfold aboutS; rw [if_neg ha]) false (named files mss)
  rw [this, ← gather_ended]
  simp only [Ran.andThen_ended, Ran.ended.injEq, Prod.mk.injEq]
  exact ⟨fun ⟨_, a, h, _, e⟩ => e ▸ h, fun h => ⟨false, out, h, rfl, rfl⟩⟩

theorem zip_messages {files : List (List Byte)} {mss : List (List Stream.Msg)}
    (h : files.length = mss.length) :
    (named files mss).map (·.2) = mss.flatten := by
  induction files generalizing mss with
  | nil =>
    cases mss with
    | nil => rfl
    | cons => cases h
  | cons f files ih =>
    cases mss with
    | nil => cases h
    | cons ms mss =>
      simp only [named, List.map_append, List.map_map, List.flatten_cons]
      rw [ih (by simpa using h)]
      congr 1
      exact List.map_id _

theorem copy_ended {raw : List Byte} {r : Option (Res (List (List Var)))} {t : List Byte} :
    copyUnparsable raw r = .ended t ↔ Settled r ∧ t = if isRefused r then raw else [] := by
  unfold Settled
  rcases r with - | (x | e | -) <;> simp [copyUnparsable, isRefused, eq_comm]

end Wrep

end Wreport
