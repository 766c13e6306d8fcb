import Verif.Spec.Data

/-!
# What a compressed data section holds

The values that an element has in all the subsets are written together, as a
column. A number column is either one field for all, or a base and one increment
for each subset; a text column is either one text for all, or any base and one
text for each subset.
-/

namespace Wreport.Spec

/-- How a column is written: the encoder's choice. -/
inductive Plan where
  /-- One value for all the subsets. -/
  | same
  /-- A base and increments of so many bits. -/
  | increments (base width : Nat)
  /-- A base and texts of so many bytes. -/
  | texts (base : List Byte) (n : Nat)

/-- A text that a field of `n` bytes can carry. -/
def carries (n : Nat) (t : List Byte) : Bool :=
  decide (t.length ≤ n) &&
    (match t.getLast? with
      | none => false
      | some b => !isSpace b && b != 0) &&
    t.any (· != 0xff)

/-- The base field of a number column. -/
def numBase (info : Varinfo) : Option Value → Option (List Bool)
  | none => if 0 < info.bit_len ∧ info.bit_len ≤ 31 then some (missingField info.bit_len) else none
  | some (.num k) =>
    if numFits info k then some (bits info.bit_len (k - info.bit_ref).toNat) else none
  | some _ => none

/-- The increment of a number. -/
def increment (info : Varinfo) (base width : Nat) : Option Value → Option (List Bool)
  | none => some (missingField width)
  | some (.num k) =>
    if numFits info k ∧ (base : Int) ≤ k - info.bit_ref ∧ k - info.bit_ref - base < 2 ^ width - 1 then
      some (bits width (k - info.bit_ref - base).toNat)
    else none
  | some _ => none

/-- A text field of `n` bytes. -/
def textOf (n : Nat) : Option Value → Option (List Bool)
  | none => some (missingField (8 * n))
  | some (.text t) => if carries n t then some (textField (8 * n) t) else none
  | some _ => none

/-- The fields of many values, one after the other. -/
def fieldsOf (f : Option Value → Option (List Bool)) : List (Option Value) → Option (List Bool)
  | [] => some []
  | v :: vs => match f v, fieldsOf f vs with
    | some a, some b => some (a ++ b)
    | _, _ => none

/-- One field for all the subsets, and increments of no bits. -/
def sameColumn (f : Option Value → Option (List Bool)) : List (Option Value) → Option (List Bool)
  | [] => none
  | v :: vs => if vs.all (· = v) then (f v).map (· ++ bits 6 0) else none

/-- A column of numbers. -/
def numColumn (info : Varinfo) (vs : List (Option Value)) : Plan → Option (List Bool)
  | .same => sameColumn (numBase info) vs
  | .increments base width =>
    if 0 < info.bit_len ∧ info.bit_len ≤ 31 ∧ base < 2 ^ info.bit_len - 1 ∧ 0 < width ∧ width ≤ 31 then
      (fieldsOf (increment info base width) vs).map fun f =>
        bits info.bit_len base ++ (bits 6 width ++ f)
    else none
  | .texts _ _ => none

/-- A column of texts. -/
def textColumn (info : Varinfo) (vs : List (Option Value)) : Plan → Option (List Bool)
  | .same => if info.bit_len % 8 = 0 then sameColumn (textOf (info.bit_len / 8)) vs else none
  | .increments _ _ => none
  | .texts base n =>
    if info.bit_len = 8 * base.length ∧ 0 < n ∧ n < 64 ∧ n ≤ base.length then
      (fieldsOf (textOf n) vs).map fun f => bytesBits base ++ (bits 6 n ++ f)
    else none

/-- A column, if the values can be written that way. -/
def column (info : Varinfo) (vs : List (Option Value)) (p : Plan) : Option (List Bool) :=
  match info.type with
  | .integer | .decimal => numColumn info vs p
  | .string => textColumn info vs p
  | .binary => none

/-- The values of the attributes with a code, which all have the same descriptor; none
for variables without such an attribute. -/
def attrColumn (code : Varcode) (info : Varinfo) : List Var → Option (List (Option Value))
  | [] => some []
  | v :: vs => match attrShown v code, attrColumn code info vs with
    | none, some l => some (none :: l)
    | some (i, x), some l => if i = info then some (x :: l) else none
    | _, none => none

/-- The increment of an associated field. -/
def assocIncrement (n significance : Nat) (info : Varinfo) (base width : Nat) :
    Option Value → Option (List Bool)
  | some (.num k) =>
    if Walk.assocFits n significance info k = true ∧ (base : Int) ≤ k ∧
        (k - base < 2 ^ width - 1 ∨ width = 0 ∧ k = base) then
      some (bits width (k - base).toNat)
    else none
  | _ => none

/-- The associated fields, `n` bits wide, of the variables of all the subsets, and the
attribute they carry. They are missing in all the subsets, or in none. -/
def assocColumn (C : Ctx) (n significance : Nat) (vs : List Var) :
    Plan → Res (List Bool × Option Varcode)
  | .same =>
    if 0 < n ∧ n ≤ 31 then
      match qualityCode significance with
      | none => .ok (missingField n ++ bits 6 0, none)
      | some q =>
        if vs.all (fun v => (attrShown v q).isNone) = true then
          .ok (missingField n ++ bits 6 0, some q)
        else .err .consistency
    else .err .consistency
  | .increments base width =>
    match qualityCode significance with
    | none => .err .consistency
    | some q => do
      let info ← C.btable.query q
      match attrColumn q info vs with
      | none => .err .consistency
      | some xs => match fieldsOf (assocIncrement n significance info base width) xs with
        | none => .err .consistency
        | some f =>
          if 0 < n ∧ n ≤ 31 ∧ info.code = q ∧ significance ≠ 21 ∧ base < 2 ^ n - 1 ∧ width ≤ 31 then
            .ok (bits n base ++ (bits 6 width ++ f), some q)
          else .err .consistency
  | .texts _ _ => .err .consistency

/-- A walk through all the subsets at once: the variables passed, the columns written
and the plans for the next ones, the attributes written so far, and the descriptors of
the bitmaps met so far. -/
structure Walks where
  subsets : List (List Var)
  plan : List Plan
  pos : Nat
  bits : List Bool
  carried : List (Nat × Varcode)
  seen : List (List Byte × Varinfo)

namespace Walks

/-- A walk at the start of some subsets. -/
def start (subsets : List (List Var)) (plan : List Plan) (seen : List (List Byte × Varinfo)) : Walks :=
  ⟨subsets, plan, 0, [], [], seen⟩

/-- The variables at a position of all the subsets. -/
def allAt (pos : Nat) : List (List Var) → Option (List Var)
  | [] => some []
  | s :: ss => match s[pos]?, allAt pos ss with
    | some v, some vs => some (v :: vs)
    | _, _ => none

/-- The next variables, if all the subsets have one with that descriptor. -/
def next (st : Interp Walks) (info : Varinfo) : Option (List Var) :=
  match allAt st.tgt.pos st.tgt.subsets with
  | some vs => if vs.all (fun v => v.info = info) = true then some vs else none
  | none => none

/-- The walk after taking variables whose column is `f`. -/
def took (st : Interp Walks) (f : List Bool) : Interp Walks :=
  { st with tgt := { st.tgt with
      plan := st.tgt.plan.tail
      pos := st.tgt.pos + 1
      bits := st.tgt.bits ++ f } }

/-- An element descriptor: a column, written as planned. -/
def element (st : Interp Walks) (info : Varinfo) : Res (Interp Walks) :=
  match next st info, st.tgt.plan with
  | some vs, p :: _ => match column info (vs.map (·.toVarCore.view)) p with
    | some f => .ok (took st f)
    | none => .err .consistency
  | _, _ => .err .consistency

/-- An element with associated fields, which come first. -/
def withField (C : Ctx) (st : Interp Walks) (info : Varinfo) : Res (Interp Walks) :=
  match next st info, st.tgt.plan with
  | some vs, p :: p' :: rest =>
    match info.type, numColumn info (vs.map (·.toVarCore.view)) p' with
    | .integer, some g | .decimal, some g => do
      let f ← assocColumn C st.associated_field.bit_count st.associated_field.significance vs p
      .ok { st with tgt := { st.tgt with
        plan := rest
        pos := st.tgt.pos + 1
        bits := st.tgt.bits ++ (f.1 ++ g)
        carried := st.tgt.carried ++ (f.2.map fun q => (st.tgt.pos, q)).toList } }
    | _, _ => .err .consistency
  | _, _ => .err .consistency

/-- A replication factor: the same number in all the subsets. -/
def factor (st : Interp Walks) (info : Varinfo) : Res (Nat × Interp Walks) :=
  match next st info, st.tgt.plan with
  | some (v :: vs), .same :: _ =>
    match v.toVarCore.view, numColumn info ((v :: vs).map (·.toVarCore.view)) .same with
    | some (.num k), some f => .ok (toU32 k, took st f)
    | _, _ => .err .consistency
  | _, _ => .err .consistency

/-- The meaning of the associated fields that follow, the same in all the subsets: 63
if missing. -/
def significance (st : Interp Walks) (info : Varinfo) : Res (Nat × Interp Walks) :=
  match next st info, st.tgt.plan with
  | some (v :: vs), .same :: _ =>
    match info.type, v.toVarCore.view, numColumn info ((v :: vs).map (·.toVarCore.view)) .same with
    | .integer, none, some f | .decimal, none, some f => .ok (63, took st f)
    | _, some (.num k), some f => .ok (toU32 k, took st f)
    | _, _, _ => .err .consistency
  | _, _ => .err .consistency

/-- The marks of a bitmap: one bit each, the same in all the subsets. -/
def marks (t : List Byte) : List Bool :=
  t.flatMap fun c => decide (c ≠ 43) :: Spec.bits 6 0

/-- A bitmap: the next variable, the same in all the subsets, has a mark for each
element, `+` for those present. They become the ones in use. -/
def bitmap (C : Ctx) (st : Interp Walks) (size : Nat) : Res (Interp Walks) :=
  match allAt st.tgt.pos st.tgt.subsets with
  | some (v :: vs) => match v.toVarCore.view with
    | some (.text t) =>
      let codes := ((st.tgt.subsets.headD []).take (st.tgt.pos + 1)).map (·.code)
      if vs.all (fun w => w.info = v.info ∧ w.toVarCore.view = v.toVarCore.view) = true ∧
          WR_VAR_F v.code = 2 ∧ v.info.len = size ∧ t.length = size ∧ 1 ≤ size ∧
          t.all (fun c => c = 43 || c = 45) = true ∧
          size ≤ (elementsBefore codes (st.tgt.pos + 1)).length ∧
          Walk.bitmapKnown C st.tgt.seen st.bitmaps.pending_definitions t v.info = true then
        .ok { st with
          bitmaps := { st.bitmaps with
            current := some ⟨(selected codes (st.tgt.pos + 1) t).reverse, 0⟩ }
          tgt := { st.tgt with
            pos := st.tgt.pos + 1
            bits := st.tgt.bits ++ marks t
            seen := if (st.tgt.seen.lookup t).isSome then st.tgt.seen
              else (t, v.info) :: st.tgt.seen } }
      else .err .consistency
    | _ => .err .consistency
  | _ => .err .consistency

/-- The number of marks of the bitmap that comes next; it is not kept as a variable. -/
def bitmapFactor (C : Ctx) (st : Interp Walks) (info : Varinfo) : Res (Nat × Interp Walks) :=
  match allAt st.tgt.pos st.tgt.subsets with
  | some (v :: _) =>
    if (info.type = .integer ∨ info.type = .decimal) ∧ Walk.asMade C.E info = true ∧
        numFits info v.info.len = true ∧ v.info.len < 2 ^ 31 then
      .ok (v.info.len, { st with tgt := { st.tgt with
        bits := st.tgt.bits ++ (Spec.bits info.bit_len (v.info.len - info.bit_ref).toNat ++
          Spec.bits 6 0) } })
    else .err .consistency
  | _ => .err .consistency

/-- The column of an attribute of a variable already passed. -/
def quality (C : Ctx) (st : Interp Walks) (info : Varinfo) (pos : Nat) : Res (Interp Walks) :=
  match allAt pos st.tgt.subsets, st.tgt.plan with
  | some vs, p :: rest => match attrColumn info.code info vs with
    | some xs => match column info xs p with
      | some f =>
        if pos < st.tgt.pos ∧ Walk.asMade C.E info = true then
          .ok { st with tgt := { st.tgt with
            plan := rest
            bits := st.tgt.bits ++ f
            carried := st.tgt.carried ++ [(pos, info.code)] } }
        else .err .consistency
      | none => .err .consistency
    | none => .err .consistency
  | _, _ => .err .consistency

/-- A substituted value is an attribute with the descriptor of the variable. -/
def substituted (C : Ctx) (st : Interp Walks) (pos : Nat) : Res (Interp Walks) :=
  match (st.tgt.subsets.headD [])[pos]? with
  | none => .err .consistency
  | some v => quality C st v.info pos

/-- What each kind of descriptor stands for; no characters in place and changes of
reference. -/
def target (C : Ctx) : Target Walks where
  define_bitmap := bitmap C
  define_variable := element
  define_variable_with_associated_field := withField C
  define_delayed_replication_factor := factor
  define_bitmap_delayed_replication_factor := bitmapFactor C
  define_associated_field_significance := significance
  define_substituted_value := substituted C
  define_attribute := quality C
  define_raw_character_data := fun _ _ => .err .unimplemented
  define_c03_refval_override := fun _ _ => .err .unimplemented

/-- All attributes that have a value were written. -/
def allCarried (w : Walks) : Bool :=
  w.subsets.all fun s => Walk.allCarried ⟨s, 0, [], w.carried, []⟩

end Walks

/-- The subsets match the descriptors to their end with all their attributes, and
written together as planned they are `bits`. -/
def MatchesTogether (C : Ctx) (depth : Nat) (datadesc : List Varcode) (subsets : List (List Var))
    (plan : List Plan) (caches : TableCaches) (bits : List Bool) : Prop :=
  ∃ st, Interp.run C (Walks.target C) depth datadesc
      (.new caches (.start subsets plan caches.bitmap_table)) = .ok st ∧
    (∀ s ∈ subsets, st.tgt.pos = s.length) ∧ st.tgt.bits = bits ∧ st.tgt.allCarried = true

end Wreport.Spec
