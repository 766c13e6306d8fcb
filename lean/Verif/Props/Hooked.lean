import Verif.Props.Compressed
import Verif.Props.CompressedData

/-!
# C90: the subsets of compressed data do not depend on each other
-/

namespace Wreport

open Spec

/-- Two variables of one descriptor, without attributes, that cannot be told apart:
only what is left behind in the storage of an unset variable may differ. -/
structure Twins (info : Varinfo) (v w : Var) : Prop where
  left : v.info = info ∧ v.attrs = []
  right : w.info = info ∧ w.attrs = []
  isset : v.isset = w.isset
  cell : v.isset = true → v.cell = w.cell

theorem Twins.view {info : Varinfo} {v w : Var} (h : Twins info v w) : v.view = w.view := by
  have hc : v.toVarCore.view = w.toVarCore.view := by
    cases hs : v.isset with
    | false => rw [view_unset hs, view_unset (h.isset ▸ hs)]
    | true =>
      have : v.toVarCore = w.toVarCore := by
        rcases v with ⟨⟨vi, vs, vc⟩, va⟩
        rcases w with ⟨⟨wi, ws, wc⟩, wa⟩
        have h1 := h.left.1.trans h.right.1.symm
        have h2 := h.isset
        have h3 := h.cell hs
        simp only at h1 h2 h3
        rw [h1, h2, h3]
      rw [this]
  unfold Var.view
  rw [hc, h.left.2, h.right.2]
  simp only [VarCore.code, h.left.1, h.right.1]

/-- Outcomes that differ at most in what an unset variable leaves behind. -/
inductive TwinRes (info : Varinfo) : Res Var → Res Var → Prop
  | ok {v w : Var} : Twins info v w → TwinRes info (.ok v) (.ok w)
  | err (e : Err) : TwinRes info (.err e) (.err e)
  | ub : TwinRes info .ub .ub

/-- The same for operations that change a variable. -/
def TwinSet (info : Varinfo) (a b : Var × Res Unit) : Prop :=
  a.2 = b.2 ∧ (a.2 = .ok () → Twins info a.1 b.1)

/-- Options with no hook for values out of range, or with one that does to a variable what it
does whatever value the variable had before. -/
def Forgetful (O : Opts) : Prop :=
  ∀ k, O.hook = some k → ∀ (info : Varinfo) (v w : Var), v.info = info ∧ v.attrs = [] →
    w.info = info ∧ w.attrs = [] →
    (∀ x, TwinSet info (k.int v x) (k.int w x)) ∧ ∀ x, TwinSet info (k.double v x) (k.double w x)

variable {info : Varinfo}

theorem Twins.unset {v w : Var} (hv : v.info = info ∧ v.attrs = []) (hw : w.info = info ∧ w.attrs = []) :
    Twins info v.unset w.unset :=
  ⟨hv, hw, rfl, fun h => by cases h⟩

theorem Twins.putInt {v w : Var} (hv : v.info = info ∧ v.attrs = []) (hw : w.info = info ∧ w.attrs = [])
    (i : Int) : Twins info (v.putInt i) (w.putInt i) :=
  ⟨hv, hw, rfl, fun _ => rfl⟩

theorem TwinSet.ofRes {v w : Var} {r s : Res Var} (h : TwinRes info r s) :
    TwinSet info (v.ofRes r) (w.ofRes s) := by
  cases h with
  | ok h => exact ⟨rfl, fun _ => h⟩
  | err e => exact ⟨rfl, fun h => by cases h⟩
  | ub => exact ⟨rfl, fun h => by cases h⟩

section
variable {E : Env} {O : Opts} {v w : Var} (hO : Forgetful O)
  (hv : v.info = info ∧ v.attrs = []) (hw : w.info = info ∧ w.attrs = [])
include hO hv hw

theorem assign_i_twin (val : Int) : TwinSet info (v.assign_i_checked O val) (w.assign_i_checked O val) := by
  unfold Var.assign_i_checked
  rw [hv.1, hw.1]
  split
  · split
    · exact ⟨rfl, fun _ => .unset hv hw⟩
    · split
      · exact ⟨rfl, fun _ => .putInt hv hw _⟩
      · cases h : O.hook with
        | none => exact ⟨rfl, fun h => by cases h⟩
        | some k => exact (hO k h info v w hv hw).1 val
  · exact ⟨rfl, fun _ => .putInt hv hw _⟩

omit hO in
theorem putDbl_twin (val : Dbl) : TwinSet info (v.putDbl E val) (w.putDbl E val) := by
  unfold Var.putDbl
  rw [hv.1, hw.1]
  apply TwinSet.ofRes
  cases info.encode_decimal E val with
  | ok i => exact .ok (.putInt hv hw i)
  | err e => exact .err e
  | ub => exact .ub

theorem assign_d_twin (val : Dbl) :
    TwinSet info (v.assign_d_checked E O val) (w.assign_d_checked E O val) := by
  unfold Var.assign_d_checked
  rw [hv.1, hw.1]
  have hook : TwinSet info
      (match O.hook with
        | some h => h.double v val
        | none => (v.unset, .err .domain))
      (match O.hook with
        | some h => h.double w val
        | none => (w.unset, .err .domain)) := by
    cases h : O.hook with
    | none => exact ⟨rfl, fun h => by cases h⟩
    | some k => exact (hO k h info v w hv hw).2 val
  split
  · split
    · exact ⟨rfl, fun _ => .unset hv hw⟩
    · exact hook
  · split
    · split
      · exact ⟨rfl, fun _ => .unset hv hw⟩
      · split
        · exact putDbl_twin hv hw _
        · exact hook
    · exact putDbl_twin hv hw _

theorem setd_twin (val : Dbl) : TwinSet info (v.setd E O val) (w.setd E O val) := by
  unfold Var.setd
  rw [hv.1, hw.1]
  cases info.type with
  | string => exact ⟨rfl, fun h => by cases h⟩
  | binary => exact ⟨rfl, fun h => by cases h⟩
  | integer => exact assign_i_twin hO hv hw _
  | decimal => exact assign_d_twin hO hv hw _

theorem setNumberOrMissing_twin (m : Bool) (val : Nat) :
    TwinRes info (Input.setNumberOrMissing E O v m val) (Input.setNumberOrMissing E O w m val) := by
  unfold Input.setNumberOrMissing
  split
  · exact .ok (.unset hv hw)
  · unfold Input.setNumber
    rw [hv.1, hw.1]
    cases info.decode_binary E val with
    | err e => exact .err e
    | ub => exact .ub
    | ok d =>
      simp only [Res.ok_bind]
      obtain ⟨h1, h2⟩ := setd_twin (E := E) hO hv hw (.fin d)
      cases h : (v.setd E O (.fin d)).2 with
      | ok u =>
        rw [h] at h1
        rw [← h1]
        exact .ok (h2 h)
      | err e =>
        rw [h] at h1
        rw [← h1]
        exact .err e
      | ub =>
        rw [h] at h1
        rw [← h1]
        exact .ub

end

/-- What the variables of a column show. -/
def Spec.columnShows (r : Res (List Var × Input)) :
    Res (List ((Nat × Option Value) × List (Nat × Option Value))) := do
  let x ← r
  return x.1.map (·.view)

/-- A number column with increments, as it is in the data: the base value, the
width of the increments, and the increments. -/
def Spec.numberColumn (width base dwidth : Nat) (incs : List Nat) : List Bool :=
  bits width base ++ (bits 6 dwidth ++ incs.flatMap (bits dwidth))

/-- Outcomes of many operations taken one after the other: all the results, or the
first failure. -/
def Spec.inTurn {α : Type} : List (Res (List α)) → Res (List α)
  | [] => .ok []
  | r :: rs => do
    let a ← r
    let as ← inTurn rs
    return a ++ as

/-- What a subset gets for an increment, from a fresh variable. -/
def ownValue (E : Env) (O : Opts) (info : Varinfo) (base dwidth inc : Nat) : Res Var := do
  let m ← Input.diffMissing E info base dwidth inc
  Input.setNumberOrMissing E O (Var.new info) m (toU32 ((base + inc : Nat)))

/-- The loop over the subsets gives each one its own value. -/
theorem diffLoop_own {E : Env} {O : Opts} (hO : Forgetful O) {base dwidth : Nat}
    (hd : dwidth ≤ 32) (incs : List Nat) (hincs : ∀ k ∈ incs, k < 2 ^ dwidth) {i : Input} (hw : i.WF)
    {rest : List Bool} (hrest : 8 ≤ rest.length) (hrem : i.rem = incs.flatMap (bits dwidth) ++ rest)
    {v : Var} (hv : v.info = info ∧ v.attrs = []) :
    columnShows (Input.diffLoop E O base dwidth incs.length v i) =
      inTurn (incs.map fun k => ownValue E O info base dwidth k >>= fun w => .ok [w.view]) := by
  induction incs generalizing i v with
  | nil => rfl
  | cons k incs ih =>
    simp only [List.flatMap_cons, List.append_assoc] at hrem
    obtain ⟨i1, g1, g2, g3, -⟩ := Input.get_bits_ok hw (n := dwidth) (v := k) hd (hincs k (by simp))
      hrem (by simp; omega)
    simp only [List.length_cons, Input.diffLoop, Input.decode_compressed_diff, g1, Res.ok_bind,
      columnShows, List.map_cons, inTurn, ownValue, hv.1, bind_assoc]
    cases Input.diffMissing E info base dwidth k with
    | err e => rfl
    | ub => rfl
    | ok m =>
      simp only [Res.ok_bind]
      have ht := setNumberOrMissing_twin (E := E) (v := v) (w := Var.new info) hO hv ⟨rfl, rfl⟩ m
        (toU32 ((base + k : Nat)))
      generalize Input.setNumberOrMissing E O v m (toU32 ((base + k : Nat))) = a at ht ⊢
      generalize Input.setNumberOrMissing E O (Var.new info) m (toU32 ((base + k : Nat))) = b at ht ⊢
      cases ht with
      | err e => rfl
      | ub => rfl
      | @ok a b ht =>
        have := ih (fun k hk => hincs k (List.mem_cons_of_mem _ hk)) g2 g3 ht.left
        simp only [columnShows, ownValue, bind_assoc] at this
        simp only [Res.ok_bind, Res.pure_def, List.map_cons, ht.view, List.singleton_append, ← this,
          bind_assoc]

/-- C90 (part): when no hook for values out of range is set, or one that does not look at the
value that the variable had before, what each subset gets
from a column of compressed numbers is what it would get if it were the only
subset: the value of a subset depends on the base and on its own increment, and
decoding the column fails if and only if decoding it for some subset alone fails.
Missing: other hooks, with which it fails (`C90_not_hook`). -/
theorem C90_own_increment_partial (E : Env) (O : Opts) (hO : Forgetful O) (info : Varinfo)
    (hl : info.bit_len ≤ 32) (base dwidth : Nat) (hb : base < 2 ^ info.bit_len) (hd0 : 0 < dwidth)
    (hd : dwidth ≤ 32) (incs : List Nat) (hne : incs ≠ []) (hincs : ∀ k ∈ incs, k < 2 ^ dwidth)
    (i : Input) (hi : i.WF) (rest : List Bool) (hrest : 8 ≤ rest.length)
    (hrem : i.rem = numberColumn info.bit_len base dwidth incs ++ rest)
    (alone : Nat → Input) (rest' : List Bool) (hrest' : 8 ≤ rest'.length)
    (halone : ∀ k ∈ incs, (alone k).WF ∧
      (alone k).rem = numberColumn info.bit_len base dwidth [k] ++ rest') :
    columnShows (i.decode_compressed_number E O info incs.length) =
      inTurn (incs.map fun k => columnShows ((alone k).decode_compressed_number E O info 1)) := by
  have base_read : ∀ (j : Input) (ks : List Nat) (r : List Bool), j.WF → 8 ≤ r.length →
      j.rem = numberColumn info.bit_len base dwidth ks ++ r →
      ∃ j', (j.decode_compressed_base E info = (do
        let ones ← all_ones E info.bit_len
        if base = ones then .err .consistency else .ok ((false, base, dwidth), j'))) ∧ j'.WF ∧
        j'.rem = ks.flatMap (bits dwidth) ++ r := by
    intro j ks r hj hr hjr
    unfold numberColumn at hjr
    simp only [List.append_assoc] at hjr
    obtain ⟨j1, a1, a2, a3, -⟩ := Input.get_bits_ok hj hl hb hjr (by simp; omega)
    obtain ⟨j2, b1, b2, b3, -⟩ := Input.get_bits_ok a2 (n := 6) (v := dwidth) (by omega) (by omega) a3
      (by simp; omega)
    refine ⟨j2, ?_, b2, b3⟩
    unfold Input.decode_compressed_base
    simp only [a1, Res.ok_bind, b1]
    cases all_ones E info.bit_len with
    | err e => rfl
    | ub => rfl
    | ok o =>
      simp only [Res.ok_bind]
      by_cases h : base = o
      · rw [if_pos ⟨h, by omega⟩, if_pos h]
      · rw [if_neg (fun x => h x.1), if_neg h]
        simp [h]
  have one : ∀ (j : Input) (ks : List Nat) (r : List Bool), j.WF → 8 ≤ r.length →
      j.rem = numberColumn info.bit_len base dwidth ks ++ r → (∀ k ∈ ks, k < 2 ^ dwidth) →
      columnShows (j.decode_compressed_number E O info ks.length) = (do
        let ones ← all_ones E info.bit_len
        if base = ones then .err .consistency else
          inTurn (ks.map fun k => ownValue E O info base dwidth k >>= fun w => .ok [w.view])) := by
    intro j ks r hj hr hjr hks
    obtain ⟨j', c1, c2, c3⟩ := base_read j ks r hj hr hjr
    unfold Input.decode_compressed_number
    rw [c1]
    cases all_ones E info.bit_len with
    | err e => rfl
    | ub => rfl
    | ok o =>
      simp only [Res.ok_bind]
      by_cases h : base = o
      · rw [if_pos h, if_pos h]
        rfl
      · rw [if_neg h, if_neg h]
        simp only [Res.ok_bind, Bool.false_eq_true, if_false]
        rw [if_neg (by omega)]
        exact diffLoop_own hO hd ks hks c2 hr c3 ⟨rfl, rfl⟩
  have hsingle : ∀ k ∈ incs, columnShows ((alone k).decode_compressed_number E O info 1) = (do
        let ones ← all_ones E info.bit_len
        if base = ones then .err .consistency else
          ownValue E O info base dwidth k >>= fun w => .ok [w.view]) := by
    intro k hk
    obtain ⟨d1, d2⟩ := halone k hk
    have := one (alone k) [k] rest' d1 hrest' d2 (by simpa using hincs k hk)
    rw [show (1 : Nat) = [k].length from rfl, this]
    congr 1
    funext o
    split
    · rfl
    · simp only [List.map_cons, List.map_nil, inTurn, bind_assoc, Res.ok_bind, Res.pure_def,
        List.append_nil]
  rw [one i incs rest hi hrest hrem hincs, List.map_congr_left hsingle]
  cases incs with
  | nil => exact absurd rfl hne
  | cons k ks =>
    cases all_ones E info.bit_len with
    | err e => rfl
    | ub => rfl
    | ok o =>
      simp only [Res.ok_bind]
      by_cases h : base = o
      · simp only [if_pos h]
        rfl
      · simp only [if_neg h]


set_option synthInstance.maxSize 4096

/-- A count of two digits kept in 16 bits. -/
def sampleCount : Varinfo := made (Varinfo.raw (WR_VAR 0 1 199) .integer (ascii "NUMERIC") 0 2 0 16)

/-- The input of a column of counts: base 50, increments of 10 bits. -/
def countColumn (incs : List Nat) : Input :=
  Input.new (packed 20 (numberColumn 16 50 10 incs))

/-- Options with a hook that does nothing: `wreport/options.h` lines 59-65 say that
setting a value out of range then does nothing. -/
def idleHook : Opts :=
  { Opts.default with hook := some ⟨fun v _ => (v, .ok ()), fun v _ => (v, .ok ())⟩ }

/-- C90 fails with a hook: counts 50 and 500 are decoded with a hook that does nothing.
The second subset on its own has no value; after the first one it has the value of
the first one, because both are decoded in the same variable. -/
theorem C90_not_hook :
    columnShows ((countColumn [0, 450]).decode_compressed_number Env0 idleHook sampleCount 2) =
        .ok [((WR_VAR 0 1 199, some (.num 50)), []), ((WR_VAR 0 1 199, some (.num 50)), [])] ∧
    columnShows ((countColumn [0]).decode_compressed_number Env0 idleHook sampleCount 1) =
        .ok [((WR_VAR 0 1 199, some (.num 50)), [])] ∧
    columnShows ((countColumn [450]).decode_compressed_number Env0 idleHook sampleCount 1) =
        .ok [((WR_VAR 0 1 199, none), [])] :=
  ⟨by decide +kernel, by decide +kernel, by decide +kernel⟩

/-- Hypotheses of C90 met by counts 50, 500 and 51: with the default options decoding fails,
with silent ones the second subset has no value. -/
example : Forgetful Opts.default ∧ sampleCount.bit_len = 16 ∧ 50 < 2 ^ 16 ∧
    (∀ k ∈ [0, 450, 1], k < 2 ^ 10) ∧
    (countColumn [0, 450, 1]).rem = numberColumn 16 50 10 [0, 450, 1] ++ List.replicate 108 false ∧
    (∀ k ∈ [0, 450, 1], (countColumn [k]).rem = numberColumn 16 50 10 [k] ++ List.replicate 128 false) ∧
    columnShows ((countColumn [0, 450, 1]).decode_compressed_number Env0 .default sampleCount 3) =
      .err .domain ∧
    columnShows ((countColumn [0, 450, 1]).decode_compressed_number Env0
        { Opts.default with silent := true } sampleCount 3) =
      .ok [((WR_VAR 0 1 199, some (.num 50)), []), ((WR_VAR 0 1 199, none), []),
        ((WR_VAR 0 1 199, some (.num 51)), [])] :=
  ⟨nofun, by decide, by decide, by decide, by decide +kernel, by decide +kernel, by decide +kernel,
    by decide +kernel⟩

/-- A hook that stores a one for counts out of range and unsets other variables: C90 covers it. -/
def oneHook : Opts :=
  { Opts.default with hook := some ⟨fun v _ => (v.putInt 1, .ok ()), fun v _ => (v.unset, .ok ())⟩ }

example : Forgetful oneHook ∧
    columnShows ((countColumn [0, 450, 1]).decode_compressed_number Env0 oneHook sampleCount 3) =
      .ok [((WR_VAR 0 1 199, some (.num 50)), []), ((WR_VAR 0 1 199, some (.num 1)), []),
        ((WR_VAR 0 1 199, some (.num 51)), [])] := by
  refine ⟨?_, by decide +kernel⟩
  intro k hk info v w hv hw
  cases hk
  exact ⟨fun _ => ⟨rfl, fun _ => .putInt hv hw _⟩, fun _ => ⟨rfl, fun _ => .unset hv hw⟩⟩

/-- The hook that does nothing is not covered. -/
example : ¬ Forgetful idleHook := by
  intro h
  have := (h _ rfl sampleCount (Var.new sampleCount) ((Var.new sampleCount).putInt 5) ⟨rfl, rfl⟩
    ⟨rfl, rfl⟩).1 0
  exact absurd (this.2 rfl).isset (by decide +kernel)

end Wreport
