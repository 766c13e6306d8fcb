import Verif.Spec.Dump
import Verif.Lemmas.DecimalUnique
import Verif.Props.Format
import Verif.Props.Bulletin
import Verif.Lemmas.Sane

/-! # Printed messages -/

namespace Wreport

open Spec

namespace Dump

theorem sep_inj {d : Byte} {a b x y : List Byte} (ha : d ∉ a) (hb : d ∉ b)
    (e : a ++ d :: x = b ++ d :: y) : a = b ∧ x = y := by
  induction a generalizing b with
  | nil =>
    cases b with
    | nil => exact ⟨rfl, (List.cons.inj e).2⟩
    | cons c b =>
      have := (List.cons.inj e).1
      subst this
      simp at hb
  | cons c a ih =>
    cases b with
    | nil =>
      have := (List.cons.inj e).1
      subst this
      simp at ha
    | cons c' b =>
      obtain ⟨h1, h2⟩ := List.cons.inj e
      subst h1
      obtain ⟨rfl, h⟩ := ih (fun h => ha (by simp [h])) (fun h => hb (by simp [h])) h2
      exact ⟨rfl, h⟩

/-- Texts, each with what ends it. -/
def glue (l : List (List Byte × Byte)) : List Byte := l.flatMap fun f => f.1 ++ [f.2]

theorem glue_inj {l l' : List (List Byte × Byte)} (hs : l.map Prod.snd = l'.map Prod.snd)
    (h : ∀ f ∈ l, f.2 ∉ f.1) (h' : ∀ f ∈ l', f.2 ∉ f.1) {x y : List Byte}
    (e : glue l ++ x = glue l' ++ y) : l = l' ∧ x = y := by
  induction l generalizing l' with
  | nil =>
    cases l' with
    | nil => exact ⟨rfl, by simpa [glue] using e⟩
    | cons => cases hs
  | cons f l ih =>
    cases l' with
    | nil => cases hs
    | cons f' l' =>
      obtain ⟨t, d⟩ := f
      obtain ⟨t', d'⟩ := f'
      simp only [List.map_cons, List.cons.injEq] at hs
      obtain ⟨hd, hs⟩ := hs
      subst hd
      have e' : t ++ d :: (glue l ++ x) = t' ++ d :: (glue l' ++ y) := by
        simpa [glue] using e
      obtain ⟨rfl, e''⟩ := sep_inj (h (t, d) (by simp)) (h' (t', d) (by simp)) e'
      obtain ⟨rfl, hx⟩ := ih hs (fun f hf => h f (by simp [hf])) (fun f hf => h' f (by simp [hf])) e''
      exact ⟨rfl, hx⟩

theorem num_digits {n : Nat} {d : Byte} (hd : d.toNat < 48 ∨ 57 < d.toNat) : d ∉ num n := by
  intro h
  have := (decDigits_decimal n).2.1 d h
  omega

theorem num_inj {m n : Nat} (h : num m = num n) : m = n := by
  rw [← (decDigits_decimal m).2.2.1, ← (decDigits_decimal n).2.2.1]
  exact congrArg digitsValue h

theorem fmtU_digits {w n : Nat} {d : Byte} (hd : d.toNat < 48 ∨ 57 < d.toNat) :
    d ∉ Crex.fmtU w n := by
  intro h
  unfold Crex.fmtU at h
  rcases List.mem_append.mp h with h | h
  · have := (List.mem_replicate.mp h).2
    subst this
    revert hd
    decide
  · exact num_digits hd h

theorem fmtU_value (w n : Nat) : digitsValue (Crex.fmtU w n) = n := by
  have zeros : ∀ k (s : List Byte), digitsValue (List.replicate k 48 ++ s) = digitsValue s := by
    intro k s
    induction k with
    | zero => rfl
    | succ k ih =>
      rw [List.replicate_succ, List.cons_append, ← ih]
      rfl
  unfold Crex.fmtU
  rw [zeros]
  exact (decDigits_decimal n).2.2.1

theorem fmtU_inj {w m n : Nat} (h : Crex.fmtU w m = Crex.fmtU w n) : m = n := by
  rw [← fmtU_value w m, ← fmtU_value w n, h]

/-- The fields of the first lines. -/
def headFields (b : Bulletin) : List (List Byte × Byte) :=
  [(b.encoding_name, 32), (num b.data_category.toNat, 58), (num b.data_subcategory.toNat, 58),
    (num b.data_subcategory_local.toNat, 32), (num b.originating_centre.toNat, 58),
    (num b.originating_subcentre.toNat, 32), (Crex.fmtU 4 b.rep_year.toNat, 45),
    (Crex.fmtU 2 b.rep_month.toNat, 45), (Crex.fmtU 2 b.rep_day.toNat, 32),
    (Crex.fmtU 2 b.rep_hour.toNat, 58), (Crex.fmtU 2 b.rep_minute.toNat, 58),
    (Crex.fmtU 2 b.rep_second.toNat, 32), (num b.update_sequence_number.toNat, 32),
    (num b.subsets.length, 32), (ascii "subsets", 10),
    (ascii " Tables: " ++ tableName b.tables.btable ++ ascii " " ++ tableName b.tables.dtable, 10),
    (ascii " Data descriptors:", 10)]

theorem head_texts (a0 a1 a2 a3 a4 a5 a6 a7 a8 a9 a10 a11 a12 a13 p q : List Byte) :
    a0 ++ ascii " " ++ a1 ++ ascii ":" ++ a2 ++ ascii ":" ++ a3 ++ ascii " " ++ a4 ++ ascii ":"
      ++ a5 ++ ascii " " ++ a6 ++ ascii "-" ++ a7 ++ ascii "-" ++ a8 ++ ascii " " ++ a9 ++ ascii
      ":" ++ a10 ++ ascii ":" ++ a11 ++ ascii " " ++ a12 ++ ascii " " ++ a13 ++ ascii
      " subsets\n" ++
      (ascii " Tables: " ++ p ++ ascii " " ++ q ++ ascii "\n") ++ ascii " Data descriptors:\n" =
    glue [(a0, 32), (a1, 58), (a2, 58), (a3, 32), (a4, 58), (a5, 32), (a6, 45), (a7, 45), (a8,
      32), (a9, 58), (a10, 58), (a11, 32), (a12, 32), (a13, 32), (ascii "subsets", 10), (ascii
      " Tables: " ++ p ++ ascii " " ++ q, 10), (ascii " Data descriptors:", 10)] := by
  simp [glue, ascii]

theorem head_glue (b : Bulletin) : headLine b ++ tablesLine b ++ ascii " Data descriptors:\n" =
    glue (headFields b) :=
  head_texts ..

theorem tableName_line {α : Type} {t : Option (List Byte × α)}
    (h : ∀ x, t = some x → OneLine x.1) : (10 : Byte) ∉ tableName t := by
  cases t with
  | none => show (10 : Byte) ∉ ascii "(not loaded)"; decide
  | some x =>
    intro hx
    exact h x rfl (List.takeWhile_subset _ hx)

theorem headFields_plain {b : Bulletin} (h : HeadPlain b) :
    ∀ f ∈ headFields b, f.2 ∉ f.1 := by
  have nm : ∀ n : Nat, (32 : Byte) ∉ num n ∧ (58 : Byte) ∉ num n := fun n =>
    ⟨num_digits (by decide), num_digits (by decide)⟩
  have fm : ∀ w n : Nat, (32 : Byte) ∉ Crex.fmtU w n ∧ (58 : Byte) ∉ Crex.fmtU w n ∧
      (45 : Byte) ∉ Crex.fmtU w n := fun w n =>
    ⟨fmtU_digits (by decide), fmtU_digits (by decide), fmtU_digits (by decide)⟩
  have en : (32 : Byte) ∉ b.encoding_name := by
    unfold Bulletin.encoding_name
    split <;> decide
  have tb : (10 : Byte) ∉ ascii " Tables: " ++ tableName b.tables.btable ++ ascii " " ++
      tableName b.tables.dtable := by
    have e1 : (10 : Byte) ∉ ascii " Tables: " := by decide
    have e2 : (10 : Byte) ∉ ascii " " := by decide
    simp only [List.mem_append, not_or]
    exact ⟨⟨⟨e1, tableName_line h.btable⟩, e2⟩, tableName_line h.dtable⟩
  have s1 : (10 : Byte) ∉ ascii "subsets" := by decide
  have s2 : (10 : Byte) ∉ ascii " Data descriptors:" := by decide
  simp only [headFields, List.forall_mem_cons]
  exact ⟨en, (nm _).2, (nm _).2, (nm _).1, (nm _).2, (nm _).1, (fm _ _).2.2, (fm _ _).2.2, (fm _ _).1,
    (fm _ _).2.1, (fm _ _).2.1, (fm _ _).1, (nm _).1, (nm _).1, s1, tb, s2, by simp⟩

theorem digits_inj {c d : Varcode} (hc : c < 65536) (hd : d < 65536)
    (h : Printer.digits c = Printer.digits d) : c = d := by
  have ch : ∀ {m n : Nat}, digitChar m = digitChar n → m % 10 = n % 10 := by
    intro m n e
    have := congrArg UInt8.toNat e
    simp only [digitChar, UInt8.toNat_ofNat'] at this
    omega
  simp only [Printer.digits, List.cons.injEq, and_true] at h
  obtain ⟨h1, h2, h3, h4, h5, h6⟩ := h
  have g1 := ch h1
  have g2 := ch h2
  have g3 := ch h3
  have g4 := ch h4
  have g5 := ch h5
  have g6 := ch h6
  clear h1 h2 h3 h4 h5 h6 ch
  have fc : WR_VAR_F c = c / 16384 % 4 := by simp [WR_VAR_F, Nat.shiftRight_eq_div_pow]
  have fd : WR_VAR_F d = d / 16384 % 4 := by simp [WR_VAR_F, Nat.shiftRight_eq_div_pow]
  have xc : WR_VAR_X c = c / 256 % 64 := by simp [WR_VAR_X, Nat.shiftRight_eq_div_pow]
  have xd : WR_VAR_X d = d / 256 % 64 := by simp [WR_VAR_X, Nat.shiftRight_eq_div_pow]
  have yc : WR_VAR_Y c = c % 256 := rfl
  have yd : WR_VAR_Y d = d % 256 := rfl
  have ef : WR_VAR_F c = WR_VAR_F d := by omega
  have ex : WR_VAR_X c = WR_VAR_X d := by
    clear fc fd ef g1 g4 g5 g6 yc yd
    omega
  have ey : WR_VAR_Y c = WR_VAR_Y d := by
    clear fc fd ef g1 g2 g3 xc xd ex
    omega
  clear g1 g2 g3 g4 g5 g6
  omega

theorem descs_inj {l l' : List Varcode} (h : ∀ c ∈ l, c < 65536) (h' : ∀ c ∈ l', c < 65536)
    {z z' : Byte} {x y : List Byte} (hz : z ≠ 32) (hz' : z' ≠ 32)
    (e : l.flatMap descLine ++ 32 :: z :: x = l'.flatMap descLine ++ 32 :: z' :: y) :
    l = l' ∧ z = z' ∧ x = y := by
  induction l generalizing l' with
  | nil =>
    cases l' with
    | nil =>
      simp only [List.flatMap_nil, List.nil_append, List.cons.injEq, true_and] at e
      exact ⟨rfl, e⟩
    | cons c l' =>
      have : z = 32 := by
        have := congrArg (fun l => l[1]?) e
        simpa [descLine, ascii] using this
      exact absurd this hz
  | cons c l ih =>
    cases l' with
    | nil =>
      have : z' = 32 := by
        have := congrArg (fun l => l[1]?) e
        simpa [descLine, ascii] using this.symm
      exact absurd this hz'
    | cons c' l' =>
      have len : ∀ c, (descLine c).length = 9 := fun c => rfl
      simp only [List.flatMap_cons, List.append_assoc] at e
      obtain ⟨e1, e2⟩ := List.append_inj e (by rw [len, len])
      have e3 : Printer.digits c = Printer.digits c' := by
        unfold descLine at e1
        have := (List.append_inj' e1 rfl).1
        exact (List.append_inj this rfl).2
      obtain ⟨rfl, r⟩ := ih (fun c hc => h c (by simp [hc])) (fun c hc => h' c (by simp [hc])) e2
      exact ⟨by rw [digits_inj (h c (by simp)) (h' c' (by simp)) e3], r⟩

/-- The fields of the details, after the kind of message. -/
def detailFields (b : Bulletin) : List (List Byte × Byte) :=
  match b.details with
  | .bufr d => [(num d.edition_number.toNat, 32), (116 :: num b.master_table_number.toNat, 58),
      (num d.master_table_version_number.toNat, 58),
      (num d.master_table_version_number_local.toNat, 32),
      (if d.compression then ascii "c" else ascii "-", 32),
      (ascii "osl" ++ num d.optional_section.length, 10), (ascii " Variables:", 10)]
  | .crex d => [(num d.edition_number.toNat, 32), (116 :: num b.master_table_number.toNat, 58),
      (num d.master_table_version_number.toNat, 58),
      (num d.master_table_version_number_local.toNat, 58),
      (num d.master_table_version_number_bufr.toNat, 32),
      (if d.has_check_digit then ascii "C" else ascii "-", 10), (ascii " Variables:", 10)]

/-- The letter of the kind of message, and the rest of what comes before the details. -/
def kind (b : Bulletin) : Byte × List Byte :=
  match b.details with
  | .bufr _ => (66, ascii "UFR details: ed")
  | .crex _ => (67, ascii "REX details: ed")

theorem bufr_texts (a0 a1 a2 a3 a4 a5 : List Byte) :
    ascii " BUFR details: ed" ++ a0 ++ ascii " t" ++ a1 ++ ascii ":" ++ a2 ++ ascii ":" ++ a3 ++
      ascii " " ++ a4 ++ ascii " osl" ++ a5 ++ ascii "\n" ++ ascii " Variables:\n" =
    32 :: 66 :: (ascii "UFR details: ed" ++ glue [(a0, 32), (116 :: a1, 58), (a2, 58), (a3, 32),
      (a4, 32), (ascii "osl" ++ a5, 10), (ascii " Variables:", 10)]) := by
  simp [glue, ascii]

theorem crex_texts (a0 a1 a2 a3 a4 a5 : List Byte) :
    ascii " CREX details: ed" ++ a0 ++ ascii " t" ++ a1 ++ ascii ":" ++ a2 ++ ascii ":" ++ a3 ++
      ascii ":" ++ a4 ++ ascii " " ++ a5 ++ ascii "\n" ++ ascii " Variables:\n" =
    32 :: 67 :: (ascii "REX details: ed" ++ glue [(a0, 32), (116 :: a1, 58), (a2, 58), (a3, 58),
      (a4, 32), (a5, 10), (ascii " Variables:", 10)]) := by
  simp [glue, ascii]

theorem details_glue (b : Bulletin) : details b ++ ascii " Variables:\n" =
    32 :: (kind b).1 :: ((kind b).2 ++ glue (detailFields b)) := by
  unfold details kind detailFields
  cases b.details with
  | bufr d => exact bufr_texts ..
  | crex d => exact crex_texts ..

theorem detailFields_plain (b : Bulletin) : ∀ f ∈ detailFields b, f.2 ∉ f.1 := by
  have nm : ∀ n : Nat, (32 : Byte) ∉ num n ∧ (58 : Byte) ∉ num n ∧ (10 : Byte) ∉ num n := fun n =>
    ⟨num_digits (by decide), num_digits (by decide), num_digits (by decide)⟩
  have nt : ∀ n : Nat, (58 : Byte) ∉ 116 :: num n := fun n h => by
    rcases List.mem_cons.mp h with h | h
    · revert h; decide
    · exact (nm n).2.1 h
  have os : ∀ n : Nat, (10 : Byte) ∉ ascii "osl" ++ num n := fun n h => by
    rcases List.mem_append.mp h with h | h
    · revert h; decide
    · exact (nm n).2.2 h
  have c1 : ∀ x : Bool, (32 : Byte) ∉ if x then ascii "c" else ascii "-" := by decide
  have c2 : ∀ x : Bool, (10 : Byte) ∉ if x then ascii "C" else ascii "-" := by decide
  have va : (10 : Byte) ∉ ascii " Variables:" := by decide
  unfold detailFields
  cases b.details with
  | bufr d =>
    simp only [List.forall_mem_cons]
    exact ⟨(nm _).1, nt _, (nm _).2.1, (nm _).1, c1 _, os _, va, by simp⟩
  | crex d =>
    simp only [List.forall_mem_cons]
    exact ⟨(nm _).1, nt _, (nm _).2.1, (nm _).2.1, (nm _).1, c2 _, va, by simp⟩

theorem head_eq (b : Bulletin) (x : List Byte) : head b ++ x = glue (headFields b) ++
    (b.datadesc.flatMap descLine ++ 32 :: (kind b).1 :: ((kind b).2 ++ (glue (detailFields b) ++ x))) := by
  have := details_glue b
  unfold head
  rw [head_glue]
  simp only [List.append_assoc] at this ⊢
  rw [← List.append_assoc (details b), this]
  simp

theorem byte_inj {a b : UInt8} (h : num a.toNat = num b.toNat) : a = b :=
  UInt8.toNat_inj.mp (num_inj h)

theorem head_inj {b b' : Bulletin} (h : HeadPlain b) (h' : HeadPlain b') {x y : List Byte}
    (e : head b ++ x = head b' ++ y) : HeadAlike b b' ∧ x = y := by
  rw [head_eq, head_eq] at e
  obtain ⟨e1, e⟩ := glue_inj (l := headFields b) (l' := headFields b') rfl (headFields_plain h)
     (headFields_plain h') e
  have kz : ∀ b, (kind b).1 ≠ 32 := by
    intro b
    unfold kind
    split <;> decide
  obtain ⟨e2, e3, e⟩ := descs_inj h.codes h'.codes (kz b) (kz b') e
  simp only [headFields, List.cons.injEq, Prod.mk.injEq, and_true] at e1
  obtain ⟨-, f1, f2, f3, f4, f5, f6, f7, f8, f9, f10, f11, f12, f13, -⟩ := e1
  have rest : b.master_table_number = b'.master_table_number ∧ (match b.details, b'.details with
    | .bufr d, .bufr d' => { d with optional_section := [] } = { d' with optional_section := [] } ∧
        d.optional_section.length = d'.optional_section.length
    | .crex d, .crex d' => d = d'
    | _, _ => False) ∧ x = y := by
    have pl := detailFields_plain b
    have pl' := detailFields_plain b'
    unfold kind detailFields at e
    unfold kind at e3
    unfold detailFields at pl pl'
    cases hd : b.details with
    | bufr d =>
      cases hd' : b'.details with
      | bufr d' =>
        simp only [hd, hd'] at e pl pl'
        obtain ⟨-, e⟩ := List.append_inj e rfl
        obtain ⟨e4, e5⟩ := glue_inj (by rfl) pl pl' e
        simp only [List.cons.injEq, Prod.mk.injEq, and_true, true_and] at e4
        obtain ⟨g1, g2, g3, g4, g5, g6⟩ := e4
        refine ⟨byte_inj g2, ⟨?_, num_inj (List.append_inj g6 rfl).2⟩, e5⟩
        have gc : d.compression = d'.compression := by
          revert g5
          cases d.compression <;> cases d'.compression <;> decide
        rw [byte_inj g1, byte_inj g3, byte_inj g4, gc]
      | crex d' =>
        simp only [hd, hd'] at e3
        exact absurd e3 (by decide)
    | crex d =>
      cases hd' : b'.details with
      | bufr d' =>
        simp only [hd, hd'] at e3
        exact absurd e3 (by decide)
      | crex d' =>
        simp only [hd, hd'] at e pl pl'
        obtain ⟨-, e⟩ := List.append_inj e rfl
        obtain ⟨e4, e5⟩ := glue_inj (by rfl) pl pl' e
        simp only [List.cons.injEq, Prod.mk.injEq, and_true, true_and] at e4
        obtain ⟨g1, g2, g3, g4, g5, g6⟩ := e4
        refine ⟨byte_inj g2, ?_, e5⟩
        have gc : d.has_check_digit = d'.has_check_digit := by
          revert g6
          cases d.has_check_digit <;> cases d'.has_check_digit <;> decide
        obtain ⟨x1, x2, x3, x4, x5⟩ := d
        obtain ⟨y1, y2, y3, y4, y5⟩ := d'
        simp only at g1 g3 g4 g5 gc
        rw [byte_inj g1, byte_inj g3, byte_inj g4, byte_inj g5, gc]
  refine ⟨⟨byte_inj f1, byte_inj f2, byte_inj f3, UInt16.toNat_inj.mp (num_inj f4),
    UInt16.toNat_inj.mp (num_inj f5), UInt16.toNat_inj.mp (fmtU_inj f6),
    UInt8.toNat_inj.mp (fmtU_inj f7), UInt8.toNat_inj.mp (fmtU_inj f8),
    UInt8.toNat_inj.mp (fmtU_inj f9), UInt8.toNat_inj.mp (fmtU_inj f10),
    UInt8.toNat_inj.mp (fmtU_inj f11), byte_inj f12, rest.1, e2, num_inj f13, rest.2.1⟩, rest.2.2⟩

/-- A line about a variable. -/
def line (desc : Varinfo → List Byte) (v : VarCore) (x : List Byte) : List Byte :=
  Printer.digits v.code ++ (ascii " " ++ (desc v.info).take 64 ++ ascii "(" ++ v.info.unit ++
    ascii "): " ++ x)

variable {E : Env} {desc : Varinfo → List Byte} {name : Varcode → List Byte × List Byte}

theorem printOne_line {v : VarCore} {t : List Byte} (h : printOne E desc v = .ok t) :
    ∃ x, v.formatFile E (ascii "(undef)") = .ok x ∧ t = line desc v x ++ [10] := by
  unfold printOne at h
  obtain ⟨x, h1, h2⟩ := Res.bind_eq_ok.mp h
  refine ⟨x, h1, ?_⟩
  cases h2
  have : ascii "\n" = [10] := by decide
  rw [this]
  simp only [line, List.append_assoc]

theorem line_plain {v : VarCore} (h : LinePlain E desc name v) {x : List Byte}
    (hx : v.formatFile E (ascii "(undef)") = .ok x) : (10 : Byte) ∉ line desc v x := by
  have h1 := h.desc
  have h2 := h.unit
  have h3 := h.value x hx
  unfold OneLine at h1 h2 h3
  have dg : (10 : Byte) ∉ Printer.digits v.code := by
    have : ∀ n, (10 : Byte) ≠ digitChar n := by
      intro n e
      have := congrArg UInt8.toNat e
      simp only [digitChar, UInt8.toNat_ofNat'] at this
      have e10 : (10 : Byte).toNat = 10 := rfl
      omega
    simp [Printer.digits, this]
  have a1 : (10 : Byte) ∉ ascii " " := by decide
  have a2 : (10 : Byte) ∉ ascii "(" := by decide
  have a3 : (10 : Byte) ∉ ascii "): " := by decide
  unfold line
  simp only [List.mem_append, not_or]
  exact ⟨dg, ⟨⟨⟨⟨a1, h1⟩, a2⟩, h2⟩, a3⟩, h3⟩

theorem one_inj {v v' : VarCore} (h : LinePlain E desc name v) (h' : LinePlain E desc name v')
    {t t' x y : List Byte} (ht : printOne E desc v = .ok t) (ht' : printOne E desc v' = .ok t')
    (e : t ++ x = t' ++ y) : SameShown E v v' ∧ x = y := by
  obtain ⟨s, h1, rfl⟩ := printOne_line ht
  obtain ⟨s', h1', rfl⟩ := printOne_line ht'
  obtain ⟨e1, e2⟩ := sep_inj (line_plain h h1) (line_plain h' h1') (by simpa using e)
  unfold line at e1
  obtain ⟨e3, e4⟩ := List.append_inj e1 rfl
  have ec := digits_inj h.code h'.code e3
  have en := h.name.trans ((congrArg name ec).trans h'.name.symm)
  obtain ⟨n1, n2⟩ := Prod.mk.inj en
  rw [n1, n2] at e4
  refine ⟨⟨ec, s, h1, ?_⟩, e2⟩
  rw [List.append_cancel_left e4]
  exact h1'

/-- What may come after the attributes of a variable. -/
def NoAttr (x : List Byte) : Prop := x = [] ∨ ∃ z, x = ascii "  [" ++ z

theorem noAttr_blank {z x : List Byte} (h : NoAttr x) : ascii "           " ++ z ≠ x := by
  rintro rfl
  rcases h with h | ⟨w, h⟩
  · cases h
  · have := congrArg (fun l => l[2]?) h
    simp [ascii] at this

theorem attrs_inj {l l' : List VarCore} (h : ∀ a ∈ l, LinePlain E desc name a)
    (h' : ∀ a ∈ l', LinePlain E desc name a) {t t' x y : List Byte}
    (ht : printAttrs E desc l = .ok t) (ht' : printAttrs E desc l' = .ok t') (hx : NoAttr x)
    (hy : NoAttr y) (e : t ++ x = t' ++ y) : List.Forall₂ (SameShown E) l l' ∧ x = y := by
  induction l generalizing l' t t' with
  | nil =>
    cases ht
    cases l' with
    | nil => cases ht'; exact ⟨.nil, e⟩
    | cons a l' =>
      obtain ⟨p, -, ht'⟩ := Res.bind_eq_ok.mp ht'
      obtain ⟨q, -, ht'⟩ := Res.bind_eq_ok.mp ht'
      cases ht'
      simp only [List.append_assoc, List.nil_append] at e
      exact absurd e.symm (noAttr_blank hx)
  | cons a l ih =>
    obtain ⟨p, h1, ht⟩ := Res.bind_eq_ok.mp ht
    obtain ⟨q, h2, ht⟩ := Res.bind_eq_ok.mp ht
    cases ht
    cases l' with
    | nil =>
      cases ht'
      simp only [List.append_assoc, List.nil_append] at e
      exact absurd e (noAttr_blank hy)
    | cons a' l' =>
      obtain ⟨p', h1', ht'⟩ := Res.bind_eq_ok.mp ht'
      obtain ⟨q', h2', ht'⟩ := Res.bind_eq_ok.mp ht'
      cases ht'
      simp only [List.append_assoc] at e
      have e := List.append_cancel_left e
      obtain ⟨s, e⟩ := one_inj (h a (by simp)) (h' a' (by simp)) h1 h1' e
      obtain ⟨f, e⟩ := ih (fun a ha => h a (by simp [ha])) (fun a ha => h' a (by simp [ha])) h2 h2' e
      exact ⟨.cons s f, e⟩

/-- What may come after the variables of subset `i`. -/
def Next (i : Nat) (x : List Byte) : Prop :=
  x = [] ∨ ∃ k z, i < k ∧ x = ascii "  [" ++ (num k ++ 93 :: z)

theorem Next.noAttr {i : Nat} {x : List Byte} (h : Next i x) : NoAttr x := by
  rcases h with h | ⟨k, z, -, h⟩
  · exact .inl h
  · exact .inr ⟨_, h⟩

theorem Next.other {i : Nat} {x z : List Byte} (h : Next i x) :
    ascii "  [" ++ (num i ++ 93 :: z) ≠ x := by
  rintro rfl
  rcases h with h | ⟨k, w, hk, h⟩
  · cases h
  · obtain ⟨e, -⟩ := sep_inj (num_digits (by decide)) (num_digits (by decide))
      (List.append_cancel_left h)
    have := num_inj e
    omega

theorem printVars_cons {i j : Nat} {v : Var} {vs : List Var} {t : List Byte}
    (h : printVars E desc i j (v :: vs) = .ok t) :
    ∃ p q r, printOne E desc v.toVarCore = .ok p ∧ printAttrs E desc v.attrs = .ok q ∧
      printVars E desc i (j + 1) vs = .ok r ∧
      t = ascii "  [" ++ (num i ++ 93 :: (91 :: (num j ++ (93 :: 32 :: (p ++ (q ++ r)))))) := by
  unfold printVars at h
  obtain ⟨x, h1, h⟩ := Res.bind_eq_ok.mp h
  obtain ⟨r, h2, h⟩ := Res.bind_eq_ok.mp h
  unfold printVar at h1
  obtain ⟨p, h3, h1⟩ := Res.bind_eq_ok.mp h1
  obtain ⟨q, h4, h1⟩ := Res.bind_eq_ok.mp h1
  cases h1
  refine ⟨p, q, r, h3, h4, h2, ?_⟩
  cases h
  have e1 : ascii "][" = [93, 91] := by decide
  have e2 : ascii "] " = [93, 32] := by decide
  rw [e1, e2]
  simp only [List.append_assoc, List.cons_append, List.nil_append]

theorem printVars_noAttr {i j : Nat} {vs : List Var} {t x : List Byte}
    (h : printVars E desc i j vs = .ok t) (hx : Next i x) : NoAttr (t ++ x) := by
  cases vs with
  | nil => cases h; exact hx.noAttr
  | cons v vs =>
    obtain ⟨p, q, r, -, -, -, rfl⟩ := printVars_cons h
    exact .inr ⟨_, List.append_assoc ..⟩

/-- The variables of a subset and their attributes. -/
def SubsetPlain (E : Env) (desc : Varinfo → List Byte) (name : Varcode → List Byte × List Byte)
    (s : List Var) : Prop :=
  ∀ v ∈ s, LinePlain E desc name v.toVarCore ∧ ∀ a ∈ v.attrs, LinePlain E desc name a

theorem vars_inj {i j : Nat} {vs vs' : List Var} (h : SubsetPlain E desc name vs)
    (h' : SubsetPlain E desc name vs') {t t' x y : List Byte}
    (ht : printVars E desc i j vs = .ok t) (ht' : printVars E desc i j vs' = .ok t')
    (hx : Next i x) (hy : Next i y) (e : t ++ x = t' ++ y) :
    List.Forall₂ (ShownVar E) vs vs' ∧ x = y := by
  induction vs generalizing vs' t t' j with
  | nil =>
    cases ht
    cases vs' with
    | nil => cases ht'; exact ⟨.nil, e⟩
    | cons v vs' =>
      obtain ⟨p, q, r, -, -, -, rfl⟩ := printVars_cons ht'
      simp only [List.append_assoc, List.nil_append, List.cons_append] at e
      exact absurd e.symm hx.other
  | cons v vs ih =>
    obtain ⟨p, q, r, h1, h2, h3, rfl⟩ := printVars_cons ht
    cases vs' with
    | nil =>
      cases ht'
      simp only [List.append_assoc, List.nil_append, List.cons_append] at e
      exact absurd e hy.other
    | cons v' vs' =>
      obtain ⟨p', q', r', h1', h2', h3', rfl⟩ := printVars_cons ht'
      simp only [List.append_assoc, List.cons_append] at e
      have e := List.append_cancel_left e
      have e := List.append_cancel_left e
      simp only [List.cons.injEq, true_and] at e
      have e := List.append_cancel_left e
      simp only [List.cons.injEq, true_and] at e
      obtain ⟨s, e⟩ := one_inj (h v (by simp)).1 (h' v' (by simp)).1 h1 h1' e
      obtain ⟨f, e⟩ := attrs_inj (h v (by simp)).2 (h' v' (by simp)).2 h2 h2'
        (printVars_noAttr h3 hx) (printVars_noAttr h3' hy) e
      obtain ⟨g, e⟩ := ih (fun v hv => h v (by simp [hv])) (fun v hv => h' v (by simp [hv])) h3 h3' e
      exact ⟨.cons ⟨s, f⟩ g, e⟩

theorem printSubsets_next {i : Nat} {ss : List Subset} {t : List Byte}
    (h : printSubsets E desc (i + 1) ss = .ok t) : Next i t := by
  induction ss generalizing i t with
  | nil => cases h; exact .inl rfl
  | cons s ss ih =>
    unfold printSubsets at h
    obtain ⟨x, h1, h⟩ := Res.bind_eq_ok.mp h
    obtain ⟨y, h2, h⟩ := Res.bind_eq_ok.mp h
    cases h
    cases s with
    | nil =>
      cases h1
      rcases ih h2 with h | ⟨k, z, hk, h⟩
      · exact .inl h
      · exact .inr ⟨k, z, by omega, h⟩
    | cons v vs =>
      obtain ⟨p, q, r, -, -, -, rfl⟩ := printVars_cons h1
      refine .inr ⟨i + 1, 91 :: (num 0 ++ (93 :: 32 :: (p ++ (q ++ (r ++ y))))), by omega, ?_⟩
      simp only [List.append_assoc, List.cons_append]

theorem subsets_inj {i : Nat} {ss ss' : List Subset} (hl : ss.length = ss'.length)
    (h : ∀ s ∈ ss, SubsetPlain E desc name s) (h' : ∀ s ∈ ss', SubsetPlain E desc name s)
    {t : List Byte} (ht : printSubsets E desc i ss = .ok t)
    (ht' : printSubsets E desc i ss' = .ok t) :
    List.Forall₂ (List.Forall₂ (ShownVar E)) ss ss' := by
  induction ss generalizing ss' t i with
  | nil =>
    cases ss' with
    | nil => exact .nil
    | cons => cases hl
  | cons s ss ih =>
    cases ss' with
    | nil => cases hl
    | cons s' ss' =>
      unfold printSubsets at ht ht'
      obtain ⟨x, h1, ht⟩ := Res.bind_eq_ok.mp ht
      obtain ⟨y, h2, ht⟩ := Res.bind_eq_ok.mp ht
      obtain ⟨x', h1', ht'⟩ := Res.bind_eq_ok.mp ht'
      obtain ⟨y', h2', ht'⟩ := Res.bind_eq_ok.mp ht'
      have e : x ++ y = x' ++ y' := Res.ok.inj (ht.trans ht'.symm)
      obtain ⟨f, rfl⟩ := vars_inj (h s (by simp)) (h' s' (by simp)) h1 h1' (printSubsets_next h2)
        (printSubsets_next h2') e
      exact .cons f (ih (by simpa using hl) (fun s hs => h s (by simp [hs]))
        (fun s hs => h' s (by simp [hs])) h2 h2')

end Dump

/-- C100, in part: messages that are printed alike have the same header and descriptors, and
as many subsets; what comes after does not matter.
Missing: the values of variables, see `C100_not_values`. -/
theorem C100_head_partial {E : Env} {desc desc' : Varinfo → List Byte} {b b' : Bulletin}
    (h : HeadPlain b) (h' : HeadPlain b') {t : List Byte} (ht : Dump.print E desc b = .ok t)
    (ht' : Dump.print E desc' b' = .ok t) : HeadAlike b b' := by
  unfold Dump.print at ht ht'
  obtain ⟨x, -, ht⟩ := Res.bind_eq_ok.mp ht
  obtain ⟨y, -, ht'⟩ := Res.bind_eq_ok.mp ht'
  exact (Dump.head_inj h h' (Res.ok.inj (ht.trans ht'.symm))).1

/-- C100, in part: if names, units and values are on one line, and each code has one name and
unit, messages that are printed alike also have the same variables and attributes, with
values that have the same text.
Missing: the values themselves, see `C100_not_values`. -/
theorem C100_variables_partial {E : Env} {desc : Varinfo → List Byte}
    {name : Varcode → List Byte × List Byte} {b b' : Bulletin} (h : HeadPlain b)
    (h' : HeadPlain b') (hv : LinesPlain E desc name b) (hv' : LinesPlain E desc name b')
    {t : List Byte} (ht : Dump.print E desc b = .ok t) (ht' : Dump.print E desc b' = .ok t) :
    List.Forall₂ (List.Forall₂ (ShownVar E)) b.subsets b'.subsets := by
  unfold Dump.print at ht ht'
  obtain ⟨x, h1, ht⟩ := Res.bind_eq_ok.mp ht
  obtain ⟨y, h2, ht'⟩ := Res.bind_eq_ok.mp ht'
  obtain ⟨e1, rfl⟩ := Dump.head_inj h h' (Res.ok.inj (ht.trans ht'.symm))
  exact Dump.subsets_inj e1.subsets hv hv' h1 h2

/-- A number in fixed notation can be read in one way. -/
theorem fixedText_inj {t : List Byte} {p : Nat} {k k' : Int} (h : FixedText t p k)
    (h' : FixedText t p k') : k = k' := by
  obtain ⟨a, b, rfl, h1, h2, h3, h4⟩ := h
  obtain ⟨a', b', e, h1', h2', h3', h4'⟩ := h'
  have nd : ∀ {a : List Byte} {n : Nat}, IsDecimalNat a n → (46 : Byte) ∉ a ∧ a.head? ≠ some 45 ∧ a ≠ [] := by
    intro a n h
    refine ⟨fun hx => ?_, fun hx => ?_, h.1⟩
    · have := h.2.1 46 hx
      revert this; decide
    · have := h.2.1 45 (List.mem_of_mem_head? hx)
      revert this; decide
  obtain ⟨d1, d2, d3⟩ := nd h1
  obtain ⟨d1', d2', d3'⟩ := nd h1'
  have sign : (k < 0 ↔ k' < 0) := by
    have hd : ∀ (c : Int) (a r : List Byte), a ≠ [] → a.head? ≠ some 45 →
        ((((if c < 0 then [45] else []) ++ a ++ r : List Byte).head? = some 45) ↔ c < 0) := by
      intro c a r h1 h2
      cases a with
      | nil => exact absurd rfl h1
      | cons x a =>
        by_cases hc : c < 0
        · simp [hc]
        · simpa [hc] using h2
    rw [← hd k a _ d3 d2, e, hd k' a' _ d3' d2']
  have e' : a ++ (if p = 0 then [] else 46 :: b) = a' ++ (if p = 0 then [] else 46 :: b') := by
    by_cases hk : k < 0
    · simpa [hk, sign.mp hk] using e
    · have hk' : ¬ k' < 0 := fun h => hk (sign.mpr h)
      simpa [hk, hk'] using e
  have ab : a = a' ∧ b = b' := by
    by_cases hp : p = 0
    · refine ⟨by simpa [hp] using e', ?_⟩
      rw [List.eq_nil_of_length_eq_zero (h2.trans hp), List.eq_nil_of_length_eq_zero (h2'.trans hp)]
    · rw [if_neg hp, if_neg hp] at e'
      exact Dump.sep_inj d1 d1' e'
  obtain ⟨rfl, rfl⟩ := ab
  have q : k.natAbs / 10 ^ p = k'.natAbs / 10 ^ p := h1.2.2.1.symm.trans h1'.2.2.1
  have r : k.natAbs % 10 ^ p = k'.natAbs % 10 ^ p := h4.symm.trans h4'
  have := Nat.div_add_mod k.natAbs (10 ^ p)
  rw [q, r, Nat.div_add_mod] at this
  omega

theorem fixedText_undef {p : Nat} {k : Int} : ¬ FixedText (ascii "(undef)") p k := by
  rintro ⟨a, b, e, h1, -⟩
  cases a with
  | nil => exact h1.1 rfl
  | cons x a =>
    have := h1.2.1 x (by simp)
    by_cases hk : k < 0
    · simp [hk, ascii] at e
    · simp [hk, ascii] at e
      rw [← e.1] at this
      revert this; decide

/-- C100, in part: of variables with the same description, those whose values have the same
text have the same value, or one has no value and the other says "(undef)".
Missing: values of 2^52 or more, whose text `C70_not_large` shows to be wrong. -/
theorem C100_values_partial {E : Env} (hE : IsRounding E.fl) {v v' : VarCore} (hv : v.Sane E)
    (hv' : v'.Sane E) (hi : v.info = v'.info)
    (hb : ∀ i, v.view = some (.num i) → |wholeUnits v.info.scale i| < 2 ^ 52)
    (hb' : ∀ i, v'.view = some (.num i) → |wholeUnits v'.info.scale i| < 2 ^ 52)
    (h : SameShown E v v') : v.view = v'.view ∨ SaysUndef v v' ∨ SaysUndef v' v := by
  obtain ⟨-, t, h1, h2⟩ := h
  -- what the text of one of them tells
  have tells : ∀ {v : VarCore}, v.Sane E →
      (∀ i, v.view = some (.num i) → |wholeUnits v.info.scale i| < 2 ^ 52) →
      v.formatFile E (ascii "(undef)") = .ok t →
      (v.view = none ∧ t = ascii "(undef)") ∨
      (v.info.IsNum ∧ ∃ i, v.view = some (.num i) ∧
        FixedText t (decimals v.info.scale) (wholeUnits v.info.scale i)) ∨
      (v.info.type = .string ∧ v.view = some (.text t)) ∨
      (v.info.type = .binary ∧ ∃ b, v.view = some (.bits b) ∧ hexRead t = some b) := by
    intro v hv hb hf
    cases hs : v.isset with
    | false =>
      refine .inl ⟨view_unset hs, ?_⟩
      rw [(C70_undefined E v _ hs).2] at hf
      exact (Res.ok.inj hf).symm
    | true =>
      by_cases hn : v.info.IsNum
      · obtain ⟨i, hc, hi, -⟩ := hv.word hn
        have hw := view_num hn hc hs
        obtain ⟨x, -, g1, g2⟩ := C70_number_partial E hE v i (ascii "(undef)") hv.made hn hs hc hi
          (hb i hw)
        rw [g1] at hf
        cases hf
        exact .inr (.inl ⟨hn, i, hw, g2⟩)
      · have wf := hv.wf
        cases ht : v.info.type with
        | integer => exact absurd (.inl ht) hn
        | decimal => exact absurd (.inr ht) hn
        | string =>
          unfold VarCore.WF at wf
          rw [ht] at wf
          rcases wf with ⟨g, -⟩ | ⟨m, g1, g2, g3⟩
          · rw [hs] at g; cases g
          obtain ⟨s, g⟩ := g3 hs
          have hw : v.view = some (.text s) := by
            unfold VarCore.view
            simp [hs, ht, g1, g]
          have := (C70_text E .default ⟨v, []⟩ ⟨v, []⟩ s (ascii "(undef)") rfl hv.wf hv.wf ht hw).2.1
          rw [show v.formatFile E (ascii "(undef)") = .ok s from this] at hf
          cases hf
          exact .inr (.inr (.inl ⟨rfl, hw⟩))
        | binary =>
          unfold VarCore.WF at wf
          rw [ht] at wf
          rcases wf with ⟨g, -⟩ | ⟨m, g1, g2, g3⟩
          · rw [hs] at g; cases g
          have hw : v.view = some (.bits ((m.take v.info.len).map (·.getD 0))) := by
            unfold VarCore.view
            simp [hs, ht, g1]
          obtain ⟨x, -, g4, g5⟩ := C70_binary E v _ (ascii "(undef)") hv.wf ht hw
          rw [g4] at hf
          cases hf
          exact .inr (.inr (.inr ⟨rfl, _, hw, g5⟩))
  have hx : hexRead (ascii "(undef)") = none := by decide
  rcases tells hv hb h1 with ⟨a1, a2⟩ | ⟨a1, i, a2, a3⟩ | ⟨a1, a2⟩ | ⟨a1, b, a2, a3⟩ <;>
  rcases tells hv' hb' h2 with ⟨c1, c2⟩ | ⟨c1, i', c2, c3⟩ | ⟨c1, c2⟩ | ⟨c1, b', c2, c3⟩
  · exact .inl (a1.trans c1.symm)
  · rw [a2] at c3; exact absurd c3 fixedText_undef
  · exact .inr (.inl ⟨a1, a2 ▸ c2⟩)
  · rw [a2, hx] at c3; cases c3
  · rw [c2] at a3; exact absurd a3 fixedText_undef
  · rw [← hi] at c3
    have := fixedText_inj a3 c3
    unfold wholeUnits at this
    have := Int.eq_of_mul_eq_mul_right (by positivity) this
    exact .inl (by rw [a2, c2, this])
  · rw [hi] at a1; rcases a1 with a1 | a1 <;> rw [c1] at a1 <;> cases a1
  · rw [hi] at a1; rcases a1 with a1 | a1 <;> rw [c1] at a1 <;> cases a1
  · exact .inr (.inr ⟨c1, c2 ▸ a2⟩)
  · rw [← hi] at c1; rcases c1 with c1 | c1 <;> rw [a1] at c1 <;> cases c1
  · exact .inl (a2.trans c2.symm)
  · rw [hi, c1] at a1; cases a1
  · rw [c2, hx] at a3; cases a3
  · rw [← hi] at c1; rcases c1 with c1 | c1 <;> rw [a1] at c1 <;> cases c1
  · rw [hi, c1] at a1; cases a1
  · rw [a3] at c3
    cases c3
    exact .inl (a2.trans c2.symm)

/-! ## Cases -/

/-- A message that says what the station is, and the temperature. -/
def dumped (s : Var) : Bulletin :=
  { bulletinWithData with subsets := [[s, numVar sampleTemp 27315], [s]] }

/-- A name for each element. -/
def dumpName (i : Varinfo) : List Byte := if i.code = sampleTemp.code then ascii "TEMPERATURE" else ascii "STATION"

/-- C100 does not hold: a station without a name is printed like one named "(undef)". -/
theorem C100_not_values :
    let v := Var.new sampleStr
    let w := ((Var.new sampleStr).setc .default (c_str (ascii "(undef)"))).1
    Dump.print EnvF dumpName (dumped v) = Dump.print EnvF dumpName (dumped w) ∧
    v.toVarCore.view = none ∧ w.toVarCore.view = some (.text (ascii "(undef)")) := by
  decide +kernel

/-- A long name. -/
def longName : Varinfo := { sampleStr with len := 60, bit_len := 480 }

def longNamed (s : List Byte) : Var := ((Var.new longName).setc .default (c_str s)).1

/-- C100 does not hold: a name of two lines is printed like two names. -/
theorem C100_not_lines :
    let b : Bulletin := { bulletinWithData with subsets := [[longNamed (ascii "a"), longNamed (ascii "b")]] }
    let b' : Bulletin := { bulletinWithData with
      subsets := [[longNamed (ascii "a\n  [0][1] 001019 STATION(CCITTIA5): b")]] }
    Dump.print EnvF dumpName b = Dump.print EnvF dumpName b' ∧
    HeadAlike b b' ∧ b.subsets.map List.length = [2] ∧ b'.subsets.map List.length = [1] := by
  refine ⟨by decide +kernel, ?_, by decide +kernel, by decide +kernel⟩
  exact ⟨rfl, rfl, rfl, rfl, rfl, rfl, rfl, rfl, rfl, rfl, rfl, rfl, rfl, rfl, rfl, rfl, rfl⟩

/-- The hypotheses of C100 are met by a message with a named station. -/
example :
    let b := dumped (longNamed (ascii "Bologna"))
    let name := fun c : Varcode => if c = sampleTemp.code then (ascii "TEMPERATURE", ascii "K")
      else (ascii "STATION", ascii "CCITTIA5")
    HeadPlain b ∧ LinesPlain EnvF dumpName name b ∧ ∃ t, Dump.print EnvF dumpName b = .ok t ∧
      (ascii "  [0][1] 012101 TEMPERATURE(K): 273.15\n  [1][0] 001019 STATION(CCITTIA5): Bologna\n") <:+ t := by
  have st : LinePlain EnvF dumpName (fun c : Varcode => if c = sampleTemp.code then
      (ascii "TEMPERATURE", ascii "K") else (ascii "STATION", ascii "CCITTIA5"))
      (longNamed (ascii "Bologna")).toVarCore := by
    have f : (longNamed (ascii "Bologna")).toVarCore.formatFile EnvF (ascii "(undef)") =
      .ok (ascii "Bologna") := by decide +kernel
    refine ⟨by decide +kernel, by decide +kernel, by unfold OneLine; decide +kernel,
      by unfold OneLine; decide +kernel, fun x hx => ?_⟩
    rw [f] at hx
    cases hx
    unfold OneLine; decide
  have tm : LinePlain EnvF dumpName (fun c : Varcode => if c = sampleTemp.code then
      (ascii "TEMPERATURE", ascii "K") else (ascii "STATION", ascii "CCITTIA5"))
      (numVar sampleTemp 27315).toVarCore := by
    have f : (numVar sampleTemp 27315).toVarCore.formatFile EnvF (ascii "(undef)") =
      .ok (ascii "273.15") := by decide +kernel
    refine ⟨by decide +kernel, by decide +kernel, by unfold OneLine; decide +kernel,
      by unfold OneLine; decide +kernel, fun x hx => ?_⟩
    rw [f] at hx
    cases hx
    unfold OneLine; decide
  refine ⟨⟨?_, ?_, ?_⟩, ?_, ?_⟩
  · rintro t ⟨⟩
    unfold OneLine; decide +kernel
  · rintro t ⟨⟩
    unfold OneLine; decide +kernel
  · show ∀ c ∈ [WR_VAR 0 12 101], c < 65536
    decide +kernel
  · intro s hs v hv
    have a1 : (longNamed (ascii "Bologna")).attrs = [] := by decide +kernel
    have a2 : (numVar sampleTemp 27315).attrs = [] := by decide +kernel
    simp only [dumped, List.mem_cons, List.not_mem_nil, or_false] at hs
    rcases hs with rfl | rfl <;> simp only [List.mem_cons, List.not_mem_nil, or_false] at hv
    · rcases hv with rfl | rfl
      · exact ⟨st, by rw [a1]; nofun⟩
      · exact ⟨tm, by rw [a2]; nofun⟩
    · subst hv
      exact ⟨st, by rw [a1]; nofun⟩
  · exact ⟨(match Dump.print EnvF dumpName (dumped (longNamed (ascii "Bologna"))) with
      | .ok t => t | _ => []), by decide +kernel, by decide +kernel⟩

/-- The hypotheses about values are met by numbers and texts. -/
example :
    IsRounding EnvF.fl ∧ (numVar sampleTemp 27315).toVarCore.view = some (.num 27315) ∧
      |wholeUnits sampleTemp.scale 27315| < 2 ^ 52 ∧
      SameShown EnvF (numVar sampleTemp 27315).toVarCore (numVar sampleTemp 27315).toVarCore ∧
      ¬ SameShown EnvF (numVar sampleTemp 27315).toVarCore (numVar sampleTemp 27316).toVarCore := by
  have f : (numVar sampleTemp 27315).toVarCore.formatFile EnvF (ascii "(undef)") =
      .ok (ascii "273.15") := by decide +kernel
  have g : (numVar sampleTemp 27316).toVarCore.formatFile EnvF (ascii "(undef)") =
      .ok (ascii "273.16") := by decide +kernel
  refine ⟨isRounding_flNearest, by decide +kernel, by decide +kernel, ⟨rfl, _, f, f⟩, ?_⟩
  rintro ⟨-, x, h1, h2⟩
  rw [f] at h1
  rw [g] at h2
  cases h1
  exact absurd (Res.ok.inj h2) (by decide)

end Wreport
