import Verif.Lemmas.World
import Verif.Props.Samples

/-!
# C91: variables own their texts and attributes

Programs create, copy, move, assign, set and destroy variables in any order. Theorems
relate what they do to the heap to what they mean when variables are just values.
-/

namespace Wreport.Own

open Spec

/-- C91: whatever a program does with variables, as long as the operations are defined on
values and it does not assign a number to a text or the other way round: no object is used
after it was destroyed or destroyed twice, every variable has the value it should have, no
two variables share an object, and every object belongs to a variable that exists. When
the program ends nothing is left on the heap.
There may be a hook for values out of range that sets the variable to a number or unsets it.
Missing for the full property: assignments between numbers and texts and setting a text to
its own value, which fail (see below), and hooks that do more. -/
theorem C91_owned_partial {E : Env} {O : Opts} (hO : PlainHook O) {n : Nat} {ops : List Op}
    {W : List (Option Var)} (h : Values.run E O (List.replicate n none) ops = some W) :
    ∃ w, World.run E O (.empty, List.replicate n none) ops = .ok w ∧ Represents w W ∧
      ∃ w', World.whole E O n ops = .ok w' ∧ ∀ a, w'.1.at? a = none := by
  obtain ⟨w, fps, h1, I⟩ := run_ok hO ops (inv_start n) h
  refine ⟨w, h1, ⟨fps, I.len, I.flen, I.rep, I.nodup, I.live⟩, ?_⟩
  obtain ⟨w', W', fps', a1, a2, a3, a4, a5⟩ := finish_ok (List.range w.2.length) I
  refine ⟨w', by simp only [World.whole, h1, Res.ok_bind, a1], fun a => ?_⟩
  by_contra hc
  obtain ⟨f, hf, haf⟩ := List.mem_flatten.mp ((a2.live a).mp hc)
  obtain ⟨k, hk⟩ := List.mem_iff_getElem?.mp hf
  have hkn : k < w.2.length := by
    have := (List.getElem?_eq_some_iff.mp hk).1
    rw [a2.flen, a5, ← I.len] at this
    exact this
  have hr := a2.rep k
  rw [a3 k (List.mem_range.mpr hkn), hk, Option.getD_some] at hr
  generalize w'.2[k]?.join = o at hr
  cases hr
  cases haf

/-- A program with texts and attributes: a variable with two attributes is copied, moved,
assigned over another one and loses an attribute. -/
def sampleProgram : List Op :=
  [.make 0 sampleTemp, .seti 0 27315, .make 1 sampleStr, .sets 1 (ascii "Bologna"), .seta 0 1,
    .make 2 sampleCode, .seti 2 1, .seta 0 2, .copy 3 0, .seti 0 99999999, .moveAssign 0 3, .sets 1 (ascii "Modena"),
    .unseta 0 (WR_VAR 0 2 1), .newFrom 4 sampleStr 1, .assign 4 1, .destroy 1, .seta 0 4, .setattrs 2 0]

example : (Values.run Env0 .default (List.replicate 5 none) sampleProgram).isSome = true := by decide +kernel

set_option synthInstance.maxSize 4096 in
/-- The meaning of the program: texts of the attributes of the first variable. -/
example : (Values.run Env0 .default (List.replicate 5 none) sampleProgram).map
      (·.map fun V => V.map fun v => (v.isset, v.attrs.map fun a => (a.code, match a.enqs Env0 with
        | .ok s => s
        | _ => []))) =
    some [some (true, [(WR_VAR 0 1 19, ascii "Modena")]), none, some (true, [(WR_VAR 0 1 19, ascii "Modena")]),
      some (false, []), some (true, [])] := by
  decide +kernel

/-- What is on the heap while a program runs, up to an address. -/
def alive (n : Nat) : Res World → List Nat
  | .ok w => (List.range n).filter fun a => (w.1.at? a).isSome
  | _ => []

/-- Not all objects that the sample program made exist when it ends, and some do before
its variables go out of scope. -/
example : alive 30 (World.run Env0 .default (.empty, List.replicate 5 none) sampleProgram) = [7, 8, 9, 10, 11] ∧
    alive 30 (World.whole Env0 .default 5 sampleProgram) = [] := by
  decide +kernel

/-- Undefined behaviour. -/
def isUb {α : Type} : Res α → Bool
  | .ub => true
  | _ => false

/-- C91 fails when a text that is not set is assigned to a number: `operator=` takes the
descriptor of the source and leaves the number in place, and the destructor then deletes
that number as if it were the address of a text. -/
theorem C91_not_text_to_number :
    isUb (World.whole Env0 .default 2 [.make 0 sampleTemp, .seti 0 5, .make 1 sampleStr, .assign 0 1]) = true ∧
      (World.run Env0 .default (.empty, [none, none])
        [.make 0 sampleTemp, .seti 0 5, .make 1 sampleStr, .assign 0 1]).isOk = true := by
  decide +kernel

/-- C91 fails when a number is assigned to a text: the number is stored over the address
of the text, which is never deleted. -/
theorem C91_not_number_to_text :
    alive 10 (World.whole Env0 .default 2
      [.make 0 sampleStr, .sets 0 (ascii "Bologna"), .make 1 sampleTemp, .seti 1 5, .assign 0 1]) = [0] := by
  decide +kernel

/-- C91 fails in the same way with move assignment, which keeps the descriptor: a number
moved into a text is then deleted as if it were an address. -/
theorem C91_not_number_moved_to_text :
    isUb (World.whole Env0 .default 2 [.make 0 sampleStr, .make 1 sampleTemp, .seti 1 5, .moveAssign 0 1]) = true := by
  decide +kernel

/-- C91 fails when a text is set to its own value, which copies a buffer onto itself. A text
that is not set and a number can be set to their own value. -/
theorem C91_not_own_text :
    isUb (World.whole Env0 .default 1 [.make 0 sampleStr, .sets 0 (ascii "Bologna"), .setval 0 0]) = true ∧
      (World.whole Env0 .default 2
        [.make 0 sampleStr, .setval 0 0, .make 1 sampleTemp, .seti 1 5, .setval 1 1]).isOk = true := by
  decide +kernel

/-- A hook that stores a zero for integers out of range and unsets other variables. -/
def zeroHook : Hook := ⟨fun v _ => (v.putInt 0, .ok ()), fun v _ => (v.unset, .ok ())⟩

/-- It is one that `C91_owned_partial` allows. -/
example : PlainHook { silent := false, clamp := false, hook := some zeroHook } := by
  intro k hk
  cases hk
  exact ⟨fun _ => ⟨fun _ _ => rfl, fun _ => rfl, fun _ => .inr ⟨0, rfl⟩⟩,
    fun _ => ⟨fun _ _ => rfl, fun _ => rfl, fun _ => .inl rfl⟩⟩

set_option synthInstance.maxSize 4096 in
/-- A program in which it is called, and which sets a variable to its own value. -/
example : (Values.run Env0 { silent := false, clamp := false, hook := some zeroHook } [none, none]
      [.make 0 sampleCode, .seti 0 99999999, .make 1 sampleTemp, .seti 1 5, .setval 1 1, .seta 1 0]).map
        (·.map fun V => V.map fun v => (v.isset, v.cell, v.attrs.map (·.cell))) =
    some [some (true, .word 0, []), some (true, .word 5, [.word 0])] := by
  decide +kernel

theorem store_frame {h : Heap} {v : HVar} {f : Mem → Res Mem} {r : Heap × HVar}
    (hr : v.store h f = .ok r) (hok : h.Ok) :
    r.2.attrs = v.attrs ∧ r.1.Ok ∧ ∀ a, v.cell ≠ .addr a → h.at? a ≠ none → r.1.at? a = h.at? a := by
  unfold HVar.store HVar.allocate at hr
  simp only [Res.bind_eq_ok, Res.pure_def, Res.ok.injEq] at hr
  obtain ⟨x, hx, m, hm, m', hm', rfl⟩ := hr
  cases hc : v.cell with
  | addr b =>
    rw [hc] at hx
    simp only [Res.ok.injEq] at hx
    subst hx
    have hb : h.at? b ≠ none := by
      intro e
      simp only [Heap.buf, e] at hm
      cases hm
    have u := upd_set hok hb (.buf m')
    refine ⟨rfl, u.ok, fun a ha _ => h.set_other _ ?_⟩
    rintro rfl
    exact ha rfl
  | word i =>
    rw [hc] at hx
    simp only at hx
    split at hx
    · simp only [Res.ok.injEq] at hx
      subst hx
      obtain ⟨u1, u2⟩ := upd_new hok (.buf (List.replicate (v.info.len + 1) none))
      have u3 := upd_set u1.ok (by rw [u2]; exact fun e => by cases e) (.buf m')
      have u4 := u1.andThen hok u3 (s := []) (by simp)
      exact ⟨rfl, u4.ok, fun a _ ha => u4.keep hok (s := [a]) (by simp) (by simpa using ha) a (by simp)⟩
    · cases hx

theorem copy_value_frame {h : Heap} {v s : HVar} {r : Heap × HVar} (hr : v.copy_value h s = .ok r)
    (hok : h.Ok) :
    r.2.attrs = v.attrs ∧ r.1.Ok ∧ ∀ a, v.cell ≠ .addr a → h.at? a ≠ none → r.1.at? a = h.at? a := by
  unfold HVar.copy_value at hr
  split at hr
  · cases hr
    exact ⟨rfl, hok, fun _ _ _ => rfl⟩
  · cases hty : v.info.type <;> simp only [hty] at hr
    · split at hr
      · cases hr
        exact ⟨rfl, hok, fun _ _ _ => rfl⟩
      · cases hr
    · split at hr
      · cases hr
        exact ⟨rfl, hok, fun _ _ _ => rfl⟩
      · cases hr
    · exact store_frame hr hok
    · exact store_frame hr hok

/-- C91 fails when a variable is assigned one of its own attributes, as in
`v = *v.enqa(code)`: the attribute is deleted before its own attributes are looked at.
That holds for all variables that have attributes. -/
theorem C91_not_own_attribute {h : Heap} (hok : h.Ok) {v : HVar} {V : Var} {p q : List Nat}
    (hv : VarRep h v V p q) (hn : (p ++ q).Nodup) {d : Nat} (hd : V.attrs.length ≤ d) {a : Nat}
    (ha : a ∈ q) : (v.assignAttr d h a).isOk = false := by
  unfold HVar.assignAttr
  cases h1 : h.node a with
  | err e => rfl
  | ub => rfl
  | ok s =>
    simp only [Res.ok_bind]
    cases h2 : HVar.copy_value h { v with info := s.info } s with
    | err e => rfl
    | ub => rfl
    | ok r =>
      obtain ⟨e1, e2, e3⟩ := copy_value_frame h2 hok
      have hcell : ∀ b ∈ q, v.cell ≠ .addr b := by
        intro b hb e
        have := hv.core.cell
        rw [e] at this
        generalize V.cell = y at this
        cases this
        exact dis_of_nodup hn b hb (by simp)
      have hl := hv.chain.congr fun b hb => e3 b (hcell b hb) (hv.chain.live b hb)
      obtain ⟨h3, b1, b2⟩ := clear_attrs_ok e2 (v := r.2) (by rw [e1]; exact hl)
        (List.nodup_append.mp hn).2.1 hd
      have : h3.node a = .ub := by
        simp only [Heap.node, b2.gone a ha (by simp)]
      simp only [Res.ok_bind, b1, this, Res.ub_bind]
      rfl

/-- The case of the theorem above, reached by a program: a temperature with a text as
attribute. -/
example : (match World.run Env0 .default (.empty, [none, none])
      [.make 0 sampleTemp, .make 1 sampleStr, .sets 1 (ascii "Bologna"), .seta 0 1] with
    | .ok (h, [some v, _]) =>
      match HVar.enqa 5 h v.attrs (WR_VAR 0 1 19) with
      | .ok (some a) => isUb (v.assignAttr 5 h a)
      | _ => false
    | _ => false) = true := by
  decide +kernel

end Wreport.Own
