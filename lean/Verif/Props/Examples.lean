import Verif.Model.Examples
import Mathlib.Data.List.Infix

/-!
Property C124: the options of the program with examples.
-/

namespace Wreport

namespace Spec.Examples

/-- What an option asks for, if it asks for something to be done. -/
abbrev Wish := Option Examples.Action

/-- Letters that are understood. The help text has `B` too. -/
def letters : List (Byte × Wish) := [(118, none), (104, some .help)]

/-- Names of options in the help text. -/
def names : List (List Byte × Wish) :=
  [(ascii "verbose", none), (ascii "help", some .help), (ascii "makebuoy", some .makebuoy)]

/-- What the options of a command line ask for, in order. Letters may follow one dash together,
names may be cut short, and what does not begin with a dash is passed over. -/
inductive Asks : List (List Byte) → List Wish → Prop
  | nil : Asks [] []
  | stop (args : List (List Byte)) : Asks (ascii "--" :: args) []
  | letters {l : List (Byte × Wish)} {args : List (List Byte)} {ws : List Wish} : l ≠ [] →
      (∀ x ∈ l, x ∈ letters) → Asks args ws → Asks ((45 :: l.map (·.1)) :: args) (l.map (·.2) ++ ws)
  | name {e : List Byte × Wish} {s : List Byte} {args : List (List Byte)} {ws : List Wish} :
      e ∈ names → s ≠ [] → s <+: e.1 → Asks args ws → Asks ((ascii "--" ++ s) :: args) (e.2 :: ws)
  | other {a : List Byte} {args : List (List Byte)} {ws : List Wish} :
      a.head? ≠ some 45 ∨ a = [45] → Asks args ws → Asks (a :: args) ws

/-- The last thing asked for; help when there is none. -/
def outcome (ws : List Wish) : Examples.Action := (ws.filterMap id).getLastD .help

end Spec.Examples

namespace Examples

open Spec.Examples

/-- A letter that is understood stands for what it asks for. -/
def wish (c : Byte) : Option Wish :=
  if c = 118 then some none
  else if c = 104 then some (some .help)
  else if c = 66 then some (some .makebuoy)
  else none

/-- What letters ask for. -/
def wishes : List Byte → Option (List Wish)
  | [] => some []
  | c :: cs => do
    let w ← wish c
    let ws ← wishes cs
    return w :: ws

theorem outcome_cons (w : Wish) (ws : List Wish) (a : Action) :
    ((w :: ws).filterMap id).getLastD a = (ws.filterMap id).getLastD (w.getD a) := by
  cases w with
  | none => simp
  | some w =>
    simp only [List.filterMap_cons, id_eq, Option.getD_some]
    exact List.getLastD_cons

theorem options_eq (a : Action) (cs : List Byte) :
    options a cs = (wishes cs).map fun ws => (ws.filterMap id).getLastD a := by
  induction cs generalizing a with
  | nil => rfl
  | cons c cs ih =>
    unfold options wishes wish
    by_cases h1 : c = 118
    · rw [if_pos h1, if_pos h1, ih]
      cases wishes cs with
      | none => rfl
      | some ws => rfl
    rw [if_neg h1, if_neg h1]
    by_cases h2 : c = 104
    · rw [if_pos h2, if_pos h2, ih]
      cases wishes cs with
      | none => rfl
      | some ws => exact congrArg some (outcome_cons (some .help) ws a).symm
    rw [if_neg h2, if_neg h2]
    by_cases h3 : c = 66
    · rw [if_pos h3, if_pos h3, ih]
      cases wishes cs with
      | none => rfl
      | some ws => exact congrArg some (outcome_cons (some .makebuoy) ws a).symm
    rw [if_neg h3, if_neg h3]
    rfl

theorem wishes_append (l m : List Byte) :
    wishes (l ++ m) = (wishes l).bind fun a => (wishes m).map (a ++ ·) := by
  induction l with
  | nil => simp [wishes]
  | cons c l ih =>
    simp only [List.cons_append, wishes, ih, Option.bind_eq_bind, Option.pure_def]
    cases wish c with
    | none => rfl
    | some w =>
      cases wishes l with
      | none => rfl
      | some a =>
        cases wishes m with
        | none => rfl
        | some b => rfl

/-- The letters of one argument. -/
theorem cluster_wishes (cs : List Byte) (ws : List Wish) :
    wishes (cs.map fun c => if shortOption c then c else 63) = some ws ↔
      ∃ l : List (Byte × Wish), (∀ x ∈ l, x ∈ letters) ∧ cs = l.map (·.1) ∧ ws = l.map (·.2) := by
  induction cs generalizing ws with
  | nil =>
    simp only [List.map_nil, wishes, Option.some.injEq]
    constructor
    · rintro rfl
      exact ⟨[], by simp, rfl, rfl⟩
    · rintro ⟨l, -, h1, rfl⟩
      rw [eq_comm, List.map_eq_nil_iff] at h1
      rw [h1]
      rfl
  | cons c cs ih =>
    simp only [List.map_cons, wishes, Option.bind_eq_bind, Option.bind_eq_some_iff, Option.pure_def,
      Option.some.injEq]
    have key : ∀ w, wish (if shortOption c then c else 63) = some w ↔ (c, w) ∈ letters := by
      intro w
      unfold shortOption letters wish
      by_cases h1 : c = 118
      · subst h1
        simp [eq_comm]
      by_cases h2 : c = 104
      · subst h2
        simp [eq_comm]
      simp [h1, h2]
    constructor
    · rintro ⟨w, hw, ws', h', rfl⟩
      obtain ⟨l, h1, h2, h3⟩ := (ih ws').mp h'
      refine ⟨(c, w) :: l, ?_, by simp [h2], by simp [h3]⟩
      intro x hx
      rcases List.mem_cons.mp hx with rfl | hx
      · exact (key w).mp hw
      · exact h1 x hx
    · rintro ⟨l, h1, h2, rfl⟩
      cases l with
      | nil => cases h2
      | cons x l =>
        obtain ⟨rfl, rfl⟩ := List.cons.inj h2
        exact ⟨x.2, (key _).mpr (h1 x (by simp)), l.map (·.2),
          (ih _).mpr ⟨l, fun y hy => h1 y (by simp [hy]), rfl, rfl⟩, rfl⟩

theorem splitValue_plain (s : List Byte) (h : (61 : Byte) ∉ s) : Wrep.splitValue s = (s, none) := by
  induction s with
  | nil => rfl
  | cons c s ih =>
    simp only [List.mem_cons, not_or] at h
    unfold Wrep.splitValue
    rw [if_neg (fun e => h.1 e.symm), ih h.2]

theorem splitValue_none {s : List Byte} (h : (Wrep.splitValue s).2 = none) : (Wrep.splitValue s).1 = s := by
  induction s with
  | nil => rfl
  | cons c s ih =>
    unfold Wrep.splitValue at h ⊢
    split at h
    · cases h
    · rename_i hc
      rw [if_neg hc]
      exact congrArg (c :: ·) (ih h)

theorem longOption_names : ∀ e ∈ names, ∀ s ∈ e.1.inits, s ≠ [] → wish (longOption s) = some e.2 := by
  decide +kernel

theorem long_names : ∀ o ∈ longOptions, ∃ e ∈ names, o.1 = e.1 ∧ wish o.2 = some e.2 := by
  decide +kernel

/-- The name of one argument. -/
theorem name_wish (s : List Byte) (w : Wish) (hs : s ≠ []) :
    wish (longOption s) = some w ↔ ∃ e ∈ names, s <+: e.1 ∧ w = e.2 := by
  constructor
  · intro h
    have found : ∀ o ∈ longOptions, s <+: o.1 → wish o.2 = some w → ∃ e ∈ names, s <+: e.1 ∧ w = e.2 := by
      intro o ho hp hw
      obtain ⟨e, he, h1, h2⟩ := long_names o ho
      rw [h2] at hw
      exact ⟨e, he, h1 ▸ hp, (Option.some.inj hw).symm⟩
    unfold longOption at h
    simp only at h
    cases hv : (Wrep.splitValue s).2 with
    | some v =>
      rw [hv] at h
      split at h
      · rename_i h1 h2
        cases h2
      · cases h
    | none =>
      rw [hv, splitValue_none hv] at h
      cases hl : longOptions.lookup s with
      | some c =>
        rw [hl] at h
        obtain ⟨a, b, hab, -⟩ := List.lookup_eq_some_iff.mp hl
        refine found (s, c) (by rw [hab]; simp) (List.prefix_refl s) h
      | none =>
        rw [hl] at h
        simp only at h
        split at h
        · rename_i c hf _
          split at hf
          · rename_i o ho
            cases hf
            have hm : o ∈ longOptions.filter (fun o => s.isPrefixOf o.1) := by
              rw [ho]
              simp
            obtain ⟨h1, h2⟩ := List.mem_filter.mp hm
            exact found o h1 (List.isPrefixOf_iff_prefix.mp h2) h
          · cases hf
        · cases h
  · rintro ⟨e, he, hp, rfl⟩
    exact longOption_names e he s ((List.mem_inits _ _).mpr hp) hs

theorem letters_no_dash : ∀ y ∈ letters, y.1 ≠ 45 := by decide

/-- What is asked for with an argument more. -/
theorem asks_cons {a : List Byte} {args : List (List Byte)} {ws : List Wish} (h : Asks (a :: args) ws) :
    (a = [45, 45] ∧ ws = []) ∨
    (∃ l ws', l ≠ [] ∧ (∀ x ∈ l, x ∈ letters) ∧ a = 45 :: l.map (·.1) ∧ Asks args ws' ∧ ws = l.map (·.2) ++ ws') ∨
    (∃ e ∈ names, ∃ s ws', s ≠ [] ∧ s <+: e.1 ∧ a = 45 :: 45 :: s ∧ Asks args ws' ∧ ws = e.2 :: ws') ∨
    ((a.head? ≠ some 45 ∨ a = [45]) ∧ Asks args ws) := by
  cases h with
  | stop => exact .inl ⟨rfl, rfl⟩
  | @letters l _ ws' h1 h2 h3 => exact .inr (.inl ⟨l, ws', h1, h2, rfl, h3, rfl⟩)
  | @name e s _ ws' h1 h2 h3 h4 => exact .inr (.inr (.inl ⟨e, h1, s, ws', h2, h3, rfl, h4, rfl⟩))
  | other h1 h2 => exact .inr (.inr (.inr ⟨h1, h2⟩))

/-- All the options of a command line. -/
theorem asks_iff (args : List (List Byte)) (ws : List Wish) :
    wishes (getopt args) = some ws ↔ Asks args ws := by
  induction args generalizing ws with
  | nil =>
    constructor
    · intro h
      cases h
      exact .nil
    · intro h
      cases h
      rfl
  | cons a args ih =>
    unfold getopt
    split
    · constructor
      · intro h
        cases h
        exact .stop args
      · intro h
        rcases asks_cons h with ⟨-, rfl⟩ | ⟨l, ws', h1, h2, h3, -⟩ | ⟨e, -, s, ws', h1, -, h3, -⟩ | ⟨h1, -⟩
        · rfl
        · cases l with
          | nil => exact absurd rfl h1
          | cons y l =>
            simp only [List.map_cons, List.cons.injEq] at h3
            exact absurd h3.2.1.symm (letters_no_dash y (h2 y (by simp)))
        · simp only [List.cons.injEq, true_and] at h3
          exact absurd h3.symm h1
        · simp at h1
    · rename_i s hs
      have hs : s ≠ [] := fun e => hs (by rw [e])
      simp only [wishes, Option.bind_eq_bind, Option.bind_eq_some_iff, Option.pure_def, Option.some.injEq,
        name_wish s _ hs, ih]
      constructor
      · rintro ⟨w, ⟨e, he, hp, rfl⟩, ws', h', rfl⟩
        exact .name he hs hp h'
      · intro h
        rcases asks_cons h with ⟨h1, -⟩ | ⟨l, ws', h1, h2, h3, -⟩ | ⟨e, he, t, ws', -, h2, h3, h4, rfl⟩ | ⟨h1, -⟩
        · simp only [List.cons.injEq, true_and] at h1
          exact absurd h1 hs
        · cases l with
          | nil => exact absurd rfl h1
          | cons y l =>
            simp only [List.map_cons, List.cons.injEq] at h3
            exact absurd h3.2.1.symm (letters_no_dash y (h2 y (by simp)))
        · simp only [List.cons.injEq, true_and] at h3
          subst h3
          exact ⟨_, ⟨e, he, h2, rfl⟩, ws', h4, rfl⟩
        · simp at h1
    · rename_i c s h1 h2
      have hc : c ≠ 45 := by
        rintro rfl
        cases s with
        | nil => exact h1 rfl rfl
        | cons d s => exact h2 rfl
      rw [wishes_append]
      simp only [Option.bind_eq_some_iff, Option.map_eq_some_iff, cluster_wishes, ih]
      constructor
      · rintro ⟨_, ⟨l, g1, g2, rfl⟩, ws', h', rfl⟩
        have hl : l ≠ [] := by
          rintro rfl
          cases g2
        rw [g2]
        exact .letters hl g1 h'
      · intro h
        rcases asks_cons h with ⟨h1, -⟩ | ⟨l, ws', -, g2, h3, h4, rfl⟩ | ⟨e, -, t, ws', -, -, h3, -⟩ | ⟨h1, -⟩
        · simp only [List.cons.injEq, true_and] at h1
          exact absurd h1.1 hc
        · simp only [List.cons.injEq, true_and] at h3
          exact ⟨_, ⟨l, g2, h3, rfl⟩, ws', h4, rfl⟩
        · simp only [List.cons.injEq, true_and] at h3
          exact absurd h3.1 hc
        · simp at h1
    · rename_i h1 h2 h3
      have ha : a.head? ≠ some 45 ∨ a = [45] := by
        cases a with
        | nil => simp
        | cons c s =>
          by_cases hc : c = 45
          · subst hc
            cases s with
            | nil => simp
            | cons d s => exact absurd rfl (h3 d s)
          · simp [hc]
      rw [ih]
      refine ⟨.other ha, fun h => ?_⟩
      rcases asks_cons h with ⟨h, -⟩ | ⟨l, ws', g1, -, h, -⟩ | ⟨e, -, t, ws', -, -, h, -⟩ | ⟨-, h⟩
      · exact absurd h h1
      · cases l with
        | nil => exact absurd rfl g1
        | cons y l => exact absurd h (h3 _ _)
      · exact absurd h (h2 _)
      · exact h

theorem getopt_append {before after : List (List Byte)} (hb : ascii "--" ∉ before) :
    getopt (before ++ after) = getopt before ++ getopt after := by
  induction before with
  | nil => rfl
  | cons a before ih =>
    simp only [List.mem_cons, not_or] at hb
    replace ih := ih hb.2
    rw [List.cons_append]
    generalize getopt after = r at ih ⊢
    unfold getopt
    split
    · exact absurd rfl hb.1
    · rw [ih, List.cons_append]
    · rw [ih, List.append_assoc]
    · exact ih

end Examples

open Spec.Examples

/-- C124 (part): a command line of options that the help text lists, but for `-B`, has the last
thing done that it asks for; with others nothing is done and the status is 1. Missing: `-B`,
which is refused (`C124_not_letter`). -/
theorem C124_options_partial (buoy : List Byte) (args : List (List Byte)) :
    (∀ ws, Asks args ws → Examples.main (.ok buoy) args =
      .ended (match outcome ws with
        | .help => Examples.helpText
        | .makebuoy => buoy, 0)) ∧
    ((¬ ∃ ws, Asks args ws) → Examples.main (.ok buoy) args = .ended ([], 1)) := by
  unfold Examples.main
  rw [Examples.options_eq]
  constructor
  · intro ws h
    rw [(Examples.asks_iff args ws).mpr h]
    show (match some (outcome ws) with
      | none => _
      | some .help => _
      | some .makebuoy => _) = _
    cases outcome ws <;> rfl
  · intro h
    cases hw : Examples.wishes (Examples.getopt args) with
    | none => rfl
    | some ws => exact absurd ⟨ws, (Examples.asks_iff args ws).mp hw⟩ h

/-- What is asked for is determined by the command line. -/
theorem C124_determined (args : List (List Byte)) {ws ws' : List Wish} (h : Asks args ws)
    (h' : Asks args ws') : ws = ws' := by
  have h1 := (Examples.asks_iff args ws).mpr h
  rw [(Examples.asks_iff args ws').mpr h'] at h1
  exact (Option.some.inj h1).symm

/-- C124 does not hold: the help text lists `-B`, and with it nothing is done, whatever comes
before. -/
theorem C124_not_letter (buoy : Res (List Byte)) (before after : List (List Byte)) (hb : ascii "--" ∉ before) :
    (∃ a b, Examples.helpText = a ++ ascii "  -B,--makebuoy       generate a buoy BUFR message\n" ++ b) ∧
    Examples.main buoy (before ++ ascii "-B" :: after) = .ended ([], 1) := by
  refine ⟨⟨_, [], by rw [List.append_nil]; rfl⟩, ?_⟩
  unfold Examples.main
  rw [Examples.options_eq, Examples.getopt_append hb, Examples.wishes_append]
  have : Examples.wishes (Examples.getopt (ascii "-B" :: after)) = none := rfl
  rw [this]
  cases Examples.wishes (Examples.getopt before) <;> rfl

/-- A command line that C124 is about: the message is asked for and then help. -/
example : Asks [ascii "--make", ascii "x", ascii "-vh"] [some .makebuoy, none, some .help] ∧
    outcome [some .makebuoy, none, some .help] = .help ∧
    outcome [some .help, some .makebuoy] = .makebuoy ∧ (¬ ∃ ws, Asks [ascii "--full"] ws) := by
  refine ⟨(Examples.asks_iff _ _).mp (by decide +kernel), rfl, rfl, ?_⟩
  rintro ⟨ws, h⟩
  have := (Examples.asks_iff _ _).mpr h
  rw [show Examples.wishes (Examples.getopt [ascii "--full"]) = none by decide +kernel] at this
  cases this

end Wreport
