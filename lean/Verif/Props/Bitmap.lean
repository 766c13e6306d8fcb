import Verif.Spec.Bitmap
import Verif.Props.Interp

/-!
# Properties of data present bitmaps
-/

namespace Wreport

open Spec

namespace Bitmap

theorem elementsBefore_succ (codes : List Varcode) (s : Nat) (c : Varcode)
    (h : codes[s]? = some c) :
    elementsBefore codes (s + 1) =
      elementsBefore codes s ++ (if WR_VAR_F c = 0 then [s] else []) := by
  unfold elementsBefore
  rw [List.range_succ, List.filter_append]
  congr 1
  by_cases hf : WR_VAR_F c = 0 <;> simp [h, hf]

theorem elementsBefore_zero (codes : List Varcode) : elementsBefore codes 0 = [] := rfl

/-- Skipping finds the last element, and what is before it. -/
theorem skipBack_spec (codes : List Varcode) (s : Nat) (h : s < codes.length) :
    (elementsBefore codes (s + 1) = [] ∧ skipBack codes s = .err .consistency) ∨
    ∃ p, p ≤ s ∧ elementsBefore codes (s + 1) = elementsBefore codes p ++ [p] ∧
      skipBack codes s = .ok p := by
  induction s with
  | zero =>
    have hc : codes[0]? = some codes[0] := List.getElem?_eq_getElem h
    rw [elementsBefore_succ codes 0 _ hc]
    unfold skipBack
    rw [hc]
    by_cases hf : WR_VAR_F codes[0] = 0
    · right
      exact ⟨0, le_refl _, by simp [hf], by simp [hf]⟩
    · left
      exact ⟨by simp [hf, elementsBefore_zero], by simp [hf]⟩
  | succ s ih =>
    have hc : codes[s + 1]? = some codes[s + 1] := List.getElem?_eq_getElem h
    rw [elementsBefore_succ codes (s + 1) _ hc]
    unfold skipBack
    rw [hc]
    by_cases hf : WR_VAR_F codes[s + 1] = 0
    · right
      exact ⟨s + 1, le_refl _, by simp [hf], by simp [hf]⟩
    · simp only [hf, if_false, List.append_nil, ne_eq, not_false_eq_true, if_true]
      rcases ih (by omega) with h' | ⟨p, hp, h'⟩
      · exact .inl h'
      · exact .inr ⟨p, by omega, h'⟩

/-- Marks as the constructor reads them. -/
def marks (elems : List Nat) (text : List Byte) : List Nat :=
  ((elems.zip text).filter fun p => p.2 = 43).map (·.1)

theorem marks_append {x : List Nat} {t : List Byte} (h : x.length = t.length) (p : Nat) (c : Byte) :
    marks (x ++ [p]) (t ++ [c]) = marks x t ++ (if c = 43 then [p] else []) := by
  unfold marks
  rw [List.zip_append h, List.filter_append, List.map_append]
  congr 1
  by_cases hc : c = 43 <;> simp [hc]

theorem marked_ok {m : Mem} {i : Nat} {c : Byte} (h : m[i]? = some (some c)) :
    marked m i = .ok (decide (c = 43)) := by
  unfold marked
  rw [h]

theorem build_spec (codes : List Varcode) (m : Mem) (text : List Byte)
    (hm : ∀ (i : Nat) (c : Byte), text[i]? = some c → m[i]? = some (some c)) (b : Nat) :
    ∀ s refs, b < text.length → 1 ≤ s → s ≤ codes.length →
      ((elementsBefore codes s).length < b + 1 ∧
        build codes (.ok m) (b + 1) s refs = .err .consistency) ∨
      (b + 1 ≤ (elementsBefore codes s).length ∧
        build codes (.ok m) (b + 1) s refs = .ok (refs ++
          (marks ((elementsBefore codes s).drop ((elementsBefore codes s).length - (b + 1)))
            (text.take (b + 1))).reverse)) := by
  induction b with
  | zero =>
    intro s refs hb hs1 hs
    obtain ⟨s, rfl⟩ : ∃ k, s = k + 1 := ⟨s - 1, by omega⟩
    unfold build
    simp only [Nat.add_sub_cancel]
    rcases skipBack_spec codes s (by omega) with ⟨h1, h2⟩ | ⟨p, hp, h1, h2⟩
    · left
      rw [h1, h2]
      exact ⟨by simp, rfl⟩
    · right
      have hc : text[0]? = some text[0] := List.getElem?_eq_getElem hb
      have ht : text.take (0 + 1) = [] ++ [text[0]] := by
        cases text with
        | nil => simp at hb
        | cons c t => simp
      rw [h1, h2, Res.ok_bind, Res.ok_bind, marked_ok (hm 0 _ hc), Res.ok_bind, if_pos trivial]
      refine ⟨by simp, ?_⟩
      rw [List.length_append, List.length_singleton, Nat.zero_add, Nat.add_sub_cancel,
        List.drop_left]
      rw [show [p] = [] ++ [p] from rfl, Nat.zero_add] at *
      rw [ht, marks_append rfl]
      unfold addRef
      by_cases h43 : text[0] = 43 <;> simp [h43, marks]
  | succ b ih =>
    intro s refs hb hs1 hs
    obtain ⟨s, rfl⟩ : ∃ k, s = k + 1 := ⟨s - 1, by omega⟩
    rw [build]
    simp only [Nat.add_sub_cancel]
    rcases skipBack_spec codes s (by omega) with ⟨h1, h2⟩ | ⟨p, hp, h1, h2⟩
    · left
      rw [h1, h2]
      exact ⟨by simp, rfl⟩
    · have hc : text[b + 1]? = some text[b + 1] := List.getElem?_eq_getElem hb
      have ht : text.take (b + 1 + 1) = text.take (b + 1) ++ [text[b + 1]] := by
        rw [List.take_succ_eq_append_getElem hb]
      rw [h1, h2, Res.ok_bind, Res.ok_bind, marked_ok (hm _ _ hc), Res.ok_bind,
        if_neg (by omega)]
      by_cases hp0 : p = 0
      · left
        subst hp0
        rw [if_pos rfl]
        exact ⟨by simp [elementsBefore_zero], rfl⟩
      · rw [if_neg hp0]
        rcases ih p (addRef refs p (decide (text[b + 1] = 43))) (by omega) (by omega) (by omega) with
          ⟨h3, h4⟩ | ⟨h3, h4⟩
        · left
          exact ⟨by simp; omega, h4⟩
        · right
          refine ⟨by simp; omega, ?_⟩
          rw [h4, ht, List.length_append, List.length_singleton]
          have hd : (elementsBefore codes p).length + 1 - (b + 1 + 1) =
              (elementsBefore codes p).length - (b + 1) := by omega
          rw [hd, List.drop_append_of_le_length (by omega), marks_append (by
            rw [List.length_drop, List.length_take]; omega)]
          unfold addRef
          by_cases h43 : text[b + 1] = 43 <;> simp [h43]

end Bitmap

/-! ## C36 -/

/-- C36: a bitmap selects exactly the elements marked present, its characters
standing for the last elements before the anchor, in data order; a bitmap longer
than the elements there is refused. -/
theorem C36_selection (E : Env) (bitmap : VarCore) (codes : List Varcode) (anchor : Nat)
    (m : Mem) (text : List Byte) (hm : bitmap.enqc E = .ok m)
    (ht : ∀ (i : Nat) (c : Byte), text[i]? = some c → m[i]? = some (some c)) (hl : text.length = bitmap.info.len)
    (h1 : 1 ≤ text.length) (ha : anchor ≤ codes.length) :
    if text.length ≤ (elementsBefore codes anchor).length then
      ∃ b, Bitmap.new E bitmap codes anchor = .ok b ∧ b.iter = 0 ∧
        b.refs.reverse = selected codes anchor text
    else Bitmap.new E bitmap codes anchor = .err .consistency := by
  obtain ⟨n, hn⟩ : ∃ k, text.length = k + 1 := ⟨text.length - 1, by omega⟩
  have hi : bitmap.info.len ≠ 0 := by omega
  by_cases he : text.length ≤ (elementsBefore codes anchor).length
  · rw [if_pos he]
    have h0 : anchor ≠ 0 := by
      rintro rfl
      rw [Bitmap.elementsBefore_zero, List.length_nil] at he
      omega
    rcases Bitmap.build_spec codes m text ht n anchor [] (by omega) (by omega) ha with
      ⟨h2, h3⟩ | ⟨h2, h3⟩
    · omega
    · unfold Bitmap.new
      rw [if_neg hi, if_neg h0, hm, ← hl, hn, h3]
      refine ⟨_, rfl, rfl, ?_⟩
      have ht : text.take (n + 1) = text := List.take_of_length_le (by omega)
      simp only [List.nil_append, List.reverse_reverse, ht]
      unfold Bitmap.marks selected
      rw [hn]
  · rw [if_neg he]
    unfold Bitmap.new
    rw [if_neg hi]
    by_cases h0 : anchor = 0
    · rw [if_pos h0]
    · rcases Bitmap.build_spec codes m text ht n anchor [] (by omega) (by omega) ha with
        ⟨h2, h3⟩ | ⟨h2, h3⟩
      · rw [if_neg h0, hm, ← hl, hn, h3]
        rfl
      · omega

theorem draws_spec (last : Option Bitmap) (pending : Varcode) (refs : List Nat) :
    ∀ k i, i + (k + 1) = refs.length →
      draws (k + 1) ⟨pending, some ⟨refs, i⟩, last⟩ =
        .ok (refs.reverse.drop i, ⟨pending, none, some ⟨refs, refs.length⟩⟩) := by
  intro k
  induction k with
  | zero =>
    intro i h
    have hi : i < refs.reverse.length := by rw [List.length_reverse]; omega
    have hd : refs.reverse.drop i = [refs.reverse[i]] := by
      rw [List.drop_eq_getElem_cons hi, List.drop_of_length_le (by rw [List.length_reverse]; omega)]
    have he : i + 1 = refs.length := by omega
    simp [draws, Bitmaps.next, Bitmap.next, List.getElem?_eq_getElem hi, Bitmap.eob, he, hd]
  | succ k ih =>
    intro i h
    have hi : i < refs.reverse.length := by rw [List.length_reverse]; omega
    have he : i + 1 ≠ refs.length := by omega
    rw [draws]
    simp only [Bitmaps.next, Bitmap.next, List.getElem?_eq_getElem hi, Bitmap.eob, he,
      decide_false, Bool.false_eq_true, if_false, Res.ok_bind, Res.pure_def]
    rw [ih (i + 1) (by omega), Res.ok_bind, List.drop_eq_getElem_cons hi]

/-- C36: once defined, a bitmap that selects something gives its positions one by
one in data order, and is then no longer in use. What is missing from the property:
bitmaps that select nothing (`C36_not_all_absent`) and bitmaps refused while
another is in use (`C36_not_redefined`). -/
theorem C36_order_partial (E : Env) (bs : Bitmaps) (bitmap : VarCore) (codes : List Varcode)
    (anchor : Nat) (m : Mem) (text : List Byte) (hm : bitmap.enqc E = .ok m)
    (ht : ∀ (i : Nat) (c : Byte), text[i]? = some c → m[i]? = some (some c)) (hl : text.length = bitmap.info.len)
    (ha : anchor ≤ codes.length) (he : text.length ≤ (elementsBefore codes anchor).length)
    (hs : selected codes anchor text ≠ []) :
    ∃ bs' done, bs.define E bitmap codes anchor = .ok bs' ∧ bs'.active = true ∧
      draws (selected codes anchor text).length bs' = .ok (selected codes anchor text, done) ∧
      done.active = false := by
  have h1 : 1 ≤ text.length := by
    by_contra h
    apply hs
    have : text = [] := List.length_eq_zero_iff.mp (by omega)
    subst this
    simp [selected]
  have h := C36_selection E bitmap codes anchor m text hm ht hl h1 ha
  rw [if_pos he] at h
  obtain ⟨⟨refs, i⟩, hb, hi, hr⟩ := h
  simp only at hi hr
  subst hi
  have hlen : refs.length = (selected codes anchor text).length := by
    rw [← hr, List.length_reverse]
  obtain ⟨k, hk⟩ : ∃ k, (selected codes anchor text).length = k + 1 := by
    cases hx : selected codes anchor text with
    | nil => exact absurd hx hs
    | cons a l => exact ⟨l.length, rfl⟩
  refine ⟨⟨bs.pending_definitions, some ⟨refs, 0⟩, bs.last⟩,
    ⟨bs.pending_definitions, none, some ⟨refs, refs.length⟩⟩, ?_, rfl, ?_, rfl⟩
  · unfold Bitmaps.define
    rw [hb]
  · rw [hk, draws_spec bs.last bs.pending_definitions refs k 0 (by omega), hr]
    simp

/-- C36: while a bitmap is in use, a quality element is an attribute of the next
selected position, for every target. -/
theorem C36_attribute {σ : Type} (C : Ctx) (T : Target σ) (d : Nat) (code : Varcode)
    (rest : List Varcode) (st : Interp σ) (b : Bitmap) (p : Nat)
    (hf : WR_VAR_F code = 0) (hx : WR_VAR_X code = 33) (h3 : st.c03_refval_override_bits = 0)
    (hb : st.bitmaps.current = some b) (hp : b.refs.reverse[b.iter]? = some p) :
    ∃ bs, st.bitmaps.next = .ok (p, bs) ∧
      Interp.run C T d (code :: rest) st = (do
        let info ← Interp.get_varinfo C st code
        let st' ← T.define_attribute { st with bitmaps := bs } info p
        Interp.run C T d rest st') := by
  have hn : ∃ bs, st.bitmaps.next = .ok (p, bs) := by
    unfold Bitmaps.next
    rw [hb]
    simp only [Bitmap.next, hp, Res.ok_bind]
    split
    · exact ⟨_, rfl⟩
    · exact ⟨_, rfl⟩
  obtain ⟨bs, hbs⟩ := hn
  refine ⟨bs, hbs, ?_⟩
  rw [Interp.run_element hf]
  have ha : st.bitmaps.active = true := by unfold Bitmaps.active; rw [hb]; rfl
  simp only [Interp.b_variable, h3, ne_eq, not_true_eq_false, if_false, Interp.elementOrAttribute,
    hf, hx, ha, and_self, if_true, hbs, Res.ok_bind, bind_assoc]

/-- C36: when all the positions of a bitmap were taken, the operator 2 37 000 puts the
same bitmap in use again, and it gives the same positions from the first one on; the
operator 2 37 255 discards it, so that 2 37 000 leaves no bitmap in use. -/
theorem C36_reuse_partial {σ : Type} (C : Ctx) (T : Target σ) (d : Nat) (rest : List Varcode)
    (st : Interp σ) (bs : Bitmaps) (bitmap : VarCore) (codes : List Varcode)
    (anchor : Nat) (m : Mem) (text : List Byte) (hm : bitmap.enqc C.E = .ok m)
    (ht : ∀ (i : Nat) (c : Byte), text[i]? = some c → m[i]? = some (some c)) (hl : text.length = bitmap.info.len)
    (ha : anchor ≤ codes.length) (he : text.length ≤ (elementsBefore codes anchor).length)
    (hs : selected codes anchor text ≠ [])
    (hst : (do
      let b ← bs.define C.E bitmap codes anchor
      let r ← draws (selected codes anchor text).length b
      return r.2) = .ok st.bitmaps) :
    (∃ again, Interp.run C T d (WR_VAR 2 37 0 :: rest) st =
        Interp.run C T d rest { st with bitmaps := again } ∧ again.active = true ∧
      draws (selected codes anchor text).length again =
        .ok (selected codes anchor text, { st.bitmaps with pending_definitions := 0 })) ∧
    (∃ none, Interp.run C T d (WR_VAR 2 37 255 :: WR_VAR 2 37 0 :: rest) st =
        Interp.run C T d rest { st with bitmaps := none } ∧ none.active = false) := by
  have h1 : 1 ≤ text.length := by
    by_contra h
    apply hs
    have : text = [] := List.length_eq_zero_iff.mp (by omega)
    subst this
    simp [selected]
  have h := C36_selection C.E bitmap codes anchor m text hm ht hl h1 ha
  rw [if_pos he] at h
  obtain ⟨⟨refs, i⟩, hb, hi, hr⟩ := h
  simp only at hi hr
  subst hi
  have hlen : refs.length = (selected codes anchor text).length := by
    rw [← hr, List.length_reverse]
  obtain ⟨k, hk⟩ : ∃ k, (selected codes anchor text).length = k + 1 := by
    cases hx : selected codes anchor text with
    | nil => exact absurd hx hs
    | cons a l => exact ⟨l.length, rfl⟩
  unfold Bitmaps.define at hst
  rw [hb, Res.ok_bind, hk, draws_spec bs.last bs.pending_definitions refs k 0 (by omega)] at hst
  simp only [Res.ok_bind, Res.pure_def, Res.ok.injEq] at hst
  rw [← hst]
  have h37 : ∀ (st : Interp σ) (rest : List Varcode), Interp.run C T d (WR_VAR 2 37 0 :: rest) st =
      Interp.run C T d rest { st with
        bitmaps := { st.bitmaps.reuse_last with pending_definitions := 0 } } := fun st rest => by
    rw [Interp.run_operator rfl]
    rfl
  have h37' : Interp.run C T d (WR_VAR 2 37 255 :: WR_VAR 2 37 0 :: rest) st =
      Interp.run C T d (WR_VAR 2 37 0 :: rest) { st with bitmaps := st.bitmaps.discard_last } := by
    rw [Interp.run_operator rfl]
    rfl
  refine ⟨⟨_, h37 st rest, ?_, ?_⟩, _, h37'.trans (h37 _ rest), ?_⟩
  · rw [← hst]
    rfl
  · rw [← hst, hk]
    simp only [Bitmaps.reuse_last, Option.map_some, Bitmap.reuse]
    rw [draws_spec none 0 refs k 0 (by omega), hr]
    rfl
  · rw [← hst]
    rfl

/-- A bitmap variable with the given characters. -/
def bitmapVar (text : List Byte) : Var :=
  match (noCaches.get_bitmap Env0 (WR_VAR 2 22 0) text).2 with
  | .ok info => match Var.newStr .default info text with
    | .ok v => v
    | _ => Var.new sampleStr
  | _ => Var.new sampleStr

/-- Codes of two elements, an operator variable and an element. -/
def bitmapCodes : List Varcode := [WR_VAR 0 12 101, WR_VAR 0 2 1, WR_VAR 2 5 1, WR_VAR 0 5 2]

/-- Hypotheses of C36 met: the operator variable is skipped and the first element
is before the three selected from. -/
example : (bitmapVar (ascii "+-+")).toVarCore.enqc Env0 = .ok (c_str (ascii "+-+")) ∧
    (ascii "+-+").length = (bitmapVar (ascii "+-+")).info.len ∧
    elementsBefore bitmapCodes 4 = [0, 1, 3] ∧
    selected bitmapCodes 4 (ascii "+-+") = [0, 3] ∧
    selected bitmapCodes 4 (ascii "+") = [3] ∧
    selected bitmapCodes 4 (ascii "-+") = [3] ∧
    selected bitmapCodes 4 (ascii "+-") = [1] := by
  decide +kernel

/-- A bitmap that selects nothing becomes the one in use, and the next quality
element reads past its end. -/
theorem C36_not_all_absent :
    selected bitmapCodes 2 (ascii "--") = [] ∧
    (Bitmaps.new.define Env0 (bitmapVar (ascii "--")).toVarCore bitmapCodes 2 >>=
      fun b => b.next) = .ub := by
  decide +kernel

/-- A bitmap refused while another is in use leaves the latter to be deleted
twice. -/
theorem C36_not_redefined :
    (Bitmaps.new.define Env0 (bitmapVar (ascii "++")).toVarCore bitmapCodes 2 >>=
      fun b => b.define Env0 (bitmapVar (ascii "++++")).toVarCore bitmapCodes 2) = .ub ∧
    Bitmap.new Env0 (bitmapVar (ascii "++++")).toVarCore bitmapCodes 2 = .err .consistency := by
  decide +kernel

end Wreport
