import Verif.Lemmas.Structure
import Verif.Model.Compressed

/-!
# What decoded variables are made from
-/

namespace Wreport

open Spec

theorem ofRes_info {v : Var} {r : Res Var} (h : ∀ w, r = .ok w → w.info = v.info) :
    (v.ofRes r).1.info = v.info := by
  cases r with
  | ok w => exact h w rfl
  | err e => rfl
  | ub => rfl

theorem assign_i_info {O : Opts} (hO : HookKeepsInfo O) (v : Var) (x : Int) :
    (v.assign_i_checked O x).1.info = v.info := by
  unfold Var.assign_i_checked
  split
  · split
    · rfl
    · split
      · rfl
      · split
        · rename_i h hh
          exact (hO h hh).1 v x
        · rfl
  · rfl

theorem putDbl_info (E : Env) (v : Var) (x : Dbl) : (v.putDbl E x).1.info = v.info := by
  refine ofRes_info fun w hw => ?_
  obtain ⟨i, -, hw⟩ := Res.bind_eq_ok.mp hw
  cases hw
  rfl

theorem assign_d_info {E : Env} {O : Opts} (hO : HookKeepsInfo O) (v : Var) (x : Dbl) :
    (v.assign_d_checked E O x).1.info = v.info := by
  unfold Var.assign_d_checked
  split
  · split
    · rfl
    · split
      · rename_i h hh
        exact (hO h hh).2 v x
      · rfl
  · split
    · split
      · rfl
      · split
        · exact putDbl_info E v _
        · split
          · rename_i h hh
            exact (hO h hh).2 v x
          · rfl
    · exact putDbl_info E v x

theorem assign_b_info (v : Var) (m : Mem) (n : Nat) : (v.assign_b_checked m n).1.info = v.info := by
  refine ofRes_info fun w hw => ?_
  obtain ⟨a, -, hw⟩ := Res.bind_eq_ok.mp hw
  split at hw
  · obtain ⟨b, -, hw⟩ := Res.bind_eq_ok.mp hw
    obtain ⟨c, -, hw⟩ := Res.bind_eq_ok.mp hw
    cases hw
    rfl
  · obtain ⟨b, -, hw⟩ := Res.bind_eq_ok.mp hw
    obtain ⟨c, -, hw⟩ := Res.bind_eq_ok.mp hw
    obtain ⟨d, -, hw⟩ := Res.bind_eq_ok.mp hw
    cases hw
    rfl

theorem assign_c_info (v : Var) (m : Mem) (n : Nat) : (v.assign_c_checked m n).1.info = v.info := by
  refine ofRes_info fun w hw => ?_
  obtain ⟨a, -, hw⟩ := Res.bind_eq_ok.mp hw
  obtain ⟨b, -, hw⟩ := Res.bind_eq_ok.mp hw
  obtain ⟨c, -, hw⟩ := Res.bind_eq_ok.mp hw
  cases hw
  rfl

theorem seti_info {O : Opts} (hO : HookKeepsInfo O) (v : Var) (x : Int) :
    (v.seti O x).1.info = v.info := by
  unfold Var.seti
  split <;> first | rfl | exact assign_i_info hO v x

theorem setd_info {E : Env} {O : Opts} (hO : HookKeepsInfo O) (v : Var) (x : Dbl) :
    (v.setd E O x).1.info = v.info := by
  unfold Var.setd
  split <;> first | rfl | exact assign_i_info hO v _ | exact assign_d_info hO v x

theorem setNumText_info {O : Opts} (hO : HookKeepsInfo O) (v : Var) (s : List Byte) :
    (v.setNumText O s).1.info = v.info := by
  unfold Var.setNumText
  split
  · rfl
  · exact assign_i_info hO v _

theorem setc_info {O : Opts} (hO : HookKeepsInfo O) (v : Var) (m : Mem) :
    (v.setc O m).1.info = v.info := by
  unfold Var.setc
  split
  · exact assign_c_info v m _
  · exact assign_b_info v m _
  all_goals
    split
    · exact setNumText_info hO v _
    all_goals rfl

theorem sets_info {O : Opts} (hO : HookKeepsInfo O) (v : Var) (s : List Byte) :
    (v.sets O s).1.info = v.info := by
  unfold Var.sets
  split
  · exact assign_c_info v _ _
  · exact assign_b_info v _ _
  all_goals exact setNumText_info hO v _

theorem newStr_info {O : Opts} (hO : HookKeepsInfo O) {info : Varinfo} {s : List Byte} {v : Var}
    (h : Var.newStr O info s = .ok v) : v.info = info := by
  unfold Var.newStr at h
  obtain ⟨_, -, h⟩ := Res.bind_eq_ok.mp h
  cases h
  exact sets_info hO _ s

theorem copy_value_info {v w : Var} {src : VarCore} (h : v.copy_value src = .ok w) :
    w.info = v.info := by
  unfold Var.copy_value at h
  split at h
  · cases h; rfl
  split at h
  · obtain ⟨a, -, h⟩ := Res.bind_eq_ok.mp h
    obtain ⟨b, -, h⟩ := Res.bind_eq_ok.mp h
    obtain ⟨c, -, h⟩ := Res.bind_eq_ok.mp h
    obtain ⟨d, -, h⟩ := Res.bind_eq_ok.mp h
    cases h
    rfl
  · obtain ⟨a, -, h⟩ := Res.bind_eq_ok.mp h
    obtain ⟨b, -, h⟩ := Res.bind_eq_ok.mp h
    obtain ⟨c, -, h⟩ := Res.bind_eq_ok.mp h
    obtain ⟨d, -, h⟩ := Res.bind_eq_ok.mp h
    cases h
    rfl
  all_goals
    split at h
    · cases h; rfl
    · cases h

theorem copy_info {v w : Var} (h : v.copy = .ok w) : w.info = v.info := by
  unfold Var.copy at h
  obtain ⟨a, h1, h⟩ := Res.bind_eq_ok.mp h
  unfold Var.setattrs at h
  obtain ⟨b, -, h⟩ := Res.bind_eq_ok.mp h
  have e : a.info = (Var.new v.info).info := copy_value_info h1
  cases h
  exact e

theorem seta_core {v a w : Var} (h : v.seta a = .ok w) : w.toVarCore = v.toVarCore := by
  unfold Var.seta at h
  obtain ⟨b, -, h⟩ := Res.bind_eq_ok.mp h
  cases h
  rfl

namespace Input

theorem setDecoded_info {O : Opts} (hO : HookKeepsInfo O) {v w : Var} {s : Option (List Byte)}
    (h : setDecoded O v s = .ok w) : w.info = v.info := by
  cases s with
  | none => cases h; rfl
  | some s =>
    obtain ⟨_, -, h⟩ := Res.bind_eq_ok.mp h
    cases h
    exact setc_info hO v _

theorem setNumber_info {E : Env} {O : Opts} (hO : HookKeepsInfo O) {v w : Var} {n : Nat}
    (h : setNumber E O v n = .ok w) : w.info = v.info := by
  obtain ⟨d, -, h⟩ := Res.bind_eq_ok.mp h
  obtain ⟨_, -, h⟩ := Res.bind_eq_ok.mp h
  cases h
  exact setd_info hO v _

theorem setNumberOrMissing_info {E : Env} {O : Opts} (hO : HookKeepsInfo O) {v w : Var} {b : Bool}
    {n : Nat} (h : setNumberOrMissing E O v b n = .ok w) : w.info = v.info := by
  unfold setNumberOrMissing at h
  split at h
  · cases h; rfl
  · exact setNumber_info hO h

theorem decode_string_var_info {O : Opts} (hO : HookKeepsInfo O) {i : Input} {v : Var}
    {r : Var × Input} (h : i.decode_string_var O v = .ok r) : r.1.info = v.info := by
  obtain ⟨a, -, h⟩ := Res.bind_eq_ok.mp h
  obtain ⟨b, h1, h⟩ := Res.bind_eq_ok.mp h
  cases h
  exact setDecoded_info hO h1

theorem decode_binary_info {O : Opts} (hO : HookKeepsInfo O) {i : Input} {v : Var}
    {r : Var × Input} (h : i.decode_binary O v = .ok r) : r.1.info = v.info := by
  obtain ⟨a, -, h⟩ := Res.bind_eq_ok.mp h
  split at h
  · cases h; rfl
  · obtain ⟨b, -, h⟩ := Res.bind_eq_ok.mp h
    cases h
    exact setc_info hO v _

theorem decode_number_info {E : Env} {O : Opts} (hO : HookKeepsInfo O) {i : Input} {v : Var}
    {r : Var × Input} (h : i.decode_number E O v = .ok r) : r.1.info = v.info := by
  obtain ⟨a, -, h⟩ := Res.bind_eq_ok.mp h
  obtain ⟨b, -, h⟩ := Res.bind_eq_ok.mp h
  obtain ⟨c, h1, h⟩ := Res.bind_eq_ok.mp h
  cases h
  exact setNumberOrMissing_info hO h1

theorem decode_compressed_diff_info {E : Env} {O : Opts} (hO : HookKeepsInfo O) {i : Input}
    {v : Var} {base bits : Nat} {r : Var × Input}
    (h : i.decode_compressed_diff E O v base bits = .ok r) : r.1.info = v.info := by
  obtain ⟨a, -, h⟩ := Res.bind_eq_ok.mp h
  obtain ⟨b, -, h⟩ := Res.bind_eq_ok.mp h
  obtain ⟨c, h1, h⟩ := Res.bind_eq_ok.mp h
  cases h
  exact setNumberOrMissing_info hO h1

/-- As many variables as subsets, of the given descriptor. -/
def Column (vs : List Var) (n : Nat) (info : Varinfo) : Prop :=
  vs.length = n ∧ ∀ v ∈ vs, v.info = info

theorem Column.replicate {v : Var} {info : Varinfo} (n : Nat) (h : v.info = info) :
    Column (List.replicate n v) n info :=
  ⟨by simp, fun w hw => by rw [List.eq_of_mem_replicate hw, h]⟩

theorem Column.cons {v : Var} {vs : List Var} {n : Nat} {info : Varinfo} (h : v.info = info)
    (hs : Column vs n info) : Column (v :: vs) (n + 1) info :=
  ⟨by simp [hs.1], fun w hw => by
    rcases List.mem_cons.mp hw with rfl | hw
    · exact h
    · exact hs.2 w hw⟩

theorem diffLoop_column {E : Env} {O : Opts} (hO : HookKeepsInfo O) {info : Varinfo}
    {base bits : Nat} (n : Nat) {w : Var} (hw : w.info = info) {i : Input} {r : List Var × Input}
    (h : diffLoop E O base bits n w i = .ok r) : Column r.1 n info := by
  induction n generalizing w i r with
  | zero => cases h; exact ⟨rfl, by simp⟩
  | succ n ih =>
    obtain ⟨a, h1, h⟩ := Res.bind_eq_ok.mp h
    obtain ⟨b, h2, h⟩ := Res.bind_eq_ok.mp h
    cases h
    have e := (decode_compressed_diff_info hO h1).trans hw
    exact .cons e (ih e h2)

theorem stringLoop_column {O : Opts} (hO : HookKeepsInfo O) {info : Varinfo}
    {bits : Nat} (n : Nat) {i : Input} {r : List Var × Input}
    (h : stringLoop O info bits n i = .ok r) : Column r.1 n info := by
  induction n generalizing i r with
  | zero => cases h; exact ⟨rfl, by simp⟩
  | succ n ih =>
    obtain ⟨a, -, h⟩ := Res.bind_eq_ok.mp h
    obtain ⟨v, h1, h⟩ := Res.bind_eq_ok.mp h
    obtain ⟨b, h2, h⟩ := Res.bind_eq_ok.mp h
    cases h
    exact .cons (setDecoded_info hO h1) (ih h2)

theorem decode_compressed_number_column {E : Env} {O : Opts} (hO : HookKeepsInfo O)
    {info : Varinfo} {n : Nat} {i : Input} {r : List Var × Input}
    (h : i.decode_compressed_number E O info n = .ok r) : Column r.1 n info := by
  obtain ⟨a, -, h⟩ := Res.bind_eq_ok.mp h
  split at h
  · cases h; exact .replicate n rfl
  split at h
  · obtain ⟨v, h1, h⟩ := Res.bind_eq_ok.mp h
    cases h
    exact .replicate n (setNumber_info hO h1)
  · exact diffLoop_column hO n rfl h

theorem decode_compressed_string_column {O : Opts} (hO : HookKeepsInfo O)
    {info : Varinfo} {n : Nat} {i : Input} {r : List Var × Input}
    (h : i.decode_compressed_string O info n = .ok r) : Column r.1 n info := by
  obtain ⟨a, -, h⟩ := Res.bind_eq_ok.mp h
  obtain ⟨b, -, h⟩ := Res.bind_eq_ok.mp h
  split at h
  · obtain ⟨v, h1, h⟩ := Res.bind_eq_ok.mp h
    cases h
    exact .replicate n (setDecoded_info hO h1)
  split at h
  · cases h
  · exact stringLoop_column hO n h

theorem fieldLoop_length {C : Ctx} {f : AssociatedField} {base bits : Nat} (n : Nat) {i : Input}
    {r : List (Option Var) × Input} (h : fieldLoop C f base bits n i = .ok r) : r.1.length = n := by
  induction n generalizing i r with
  | zero => cases h; rfl
  | succ n ih =>
    obtain ⟨a, -, h⟩ := Res.bind_eq_ok.mp h
    obtain ⟨v, -, h⟩ := Res.bind_eq_ok.mp h
    obtain ⟨b, h2, h⟩ := Res.bind_eq_ok.mp h
    cases h
    simp [ih h2]

theorem addAttr_info (v : Var) (a : Option Var) : (addAttr v a).info = v.info := by
  cases a <;> rfl

theorem Column.attrs {v : Var} {info : Varinfo} (h : v.info = info) (as : List (Option Var)) :
    Column (as.map (addAttr v)) as.length info :=
  ⟨by simp, fun w hw => by
    obtain ⟨a, -, rfl⟩ := List.mem_map.mp hw
    rw [addAttr_info, h]⟩

theorem fieldDiffLoop_column {C : Ctx} (hO : HookKeepsInfo C.O) {base bits : Nat}
    (as : List (Option Var)) {v : Var} {i : Input} {r : List Var × Input}
    (h : fieldDiffLoop C base bits v as i = .ok r) : Column r.1 as.length v.info := by
  induction as generalizing v i r with
  | nil => cases h; exact ⟨rfl, by simp⟩
  | cons a as ih =>
    obtain ⟨b, h1, h⟩ := Res.bind_eq_ok.mp h
    obtain ⟨c, h2, h⟩ := Res.bind_eq_ok.mp h
    cases h
    have e := decode_compressed_diff_info hO h1
    have := ih h2
    rw [addAttr_info, e] at this
    exact .cons (by rw [addAttr_info, e]) this

theorem decode_compressed_number_attrs_column {C : Ctx} (hO : HookKeepsInfo C.O) {info : Varinfo}
    {as : List (Option Var)} {i : Input} {r : List Var × Input}
    (h : i.decode_compressed_number_attrs C info as = .ok r) : Column r.1 as.length info := by
  obtain ⟨a, -, h⟩ := Res.bind_eq_ok.mp h
  split at h
  · cases h; exact .attrs rfl as
  split at h
  · obtain ⟨v, h1, h⟩ := Res.bind_eq_ok.mp h
    cases h
    exact .attrs (setNumber_info hO h1) as
  · exact fieldDiffLoop_column hO as h

theorem decode_compressed_number_af_column {C : Ctx} (hO : HookKeepsInfo C.O) {info : Varinfo}
    {f : AssociatedField} {n : Nat} {i : Input} {r : List Var × Input}
    (h : i.decode_compressed_number_af C info f n = .ok r) : Column r.1 n info := by
  obtain ⟨a, -, h⟩ := Res.bind_eq_ok.mp h
  obtain ⟨b, -, h⟩ := Res.bind_eq_ok.mp h
  obtain ⟨c, -, h⟩ := Res.bind_eq_ok.mp h
  split at h
  · exact decode_compressed_number_column hO h
  · obtain ⟨as, h1, h⟩ := Res.bind_eq_ok.mp h
    have := decode_compressed_number_attrs_column hO h
    rwa [fieldLoop_length n h1] at this

theorem decode_string_same_info {O : Opts} (hO : HookKeepsInfo O) {v : Var} {n : Nat} {i : Input}
    {r : Var × Input} (h : i.decode_string_same O v n = .ok r) : r.1.info = v.info := by
  obtain ⟨a, -, h⟩ := Res.bind_eq_ok.mp h
  obtain ⟨b, -, h⟩ := Res.bind_eq_ok.mp h
  split at h
  · obtain ⟨w, h1, h⟩ := Res.bind_eq_ok.mp h
    cases h
    exact setDecoded_info hO h1
  split at h
  · cases h
  · obtain ⟨c, -, h⟩ := Res.bind_eq_ok.mp h
    obtain ⟨w, h1, h⟩ := Res.bind_eq_ok.mp h
    obtain ⟨d, -, h⟩ := Res.bind_eq_ok.mp h
    have e : w.info = v.unset.info := setDecoded_info hO h1
    cases h
    exact e

theorem decode_semantic_info {E : Env} {O : Opts} (hO : HookKeepsInfo O) {v : Var} {i : Input}
    {r : Var × Input} (h : i.decode_compressed_semantic_number E O v = .ok r) :
    r.1.info = v.info := by
  obtain ⟨a, -, h⟩ := Res.bind_eq_ok.mp h
  obtain ⟨b, -, h⟩ := Res.bind_eq_ok.mp h
  obtain ⟨c, -, h⟩ := Res.bind_eq_ok.mp h
  split at h
  · cases h
  · obtain ⟨w, h1, h⟩ := Res.bind_eq_ok.mp h
    cases h
    exact setNumberOrMissing_info hO h1

end Input

/-- A replication factor that can be read is a number. -/
theorem counts_of_enqi {v : VarCore} {n : Int} (h : v.enqi = .ok n) : counts v (toU32 n) := by
  refine ⟨n, ?_, rfl⟩
  unfold VarCore.enqi at h
  unfold VarCore.view
  cases hs : v.isset with
  | false => rw [hs] at h; cases h
  | true =>
    rw [hs] at h
    simp only [Bool.not_true, Bool.false_eq_true, if_false] at h ⊢
    cases ht : v.info.type <;> rw [ht] at h <;> cases hc : v.cell <;> rw [hc] at h <;>
      first | cases h; rfl | cases h

theorem build_length {codes : List Varcode} {m : Mem} {t : List Byte} (hm : ∃ r, m = c_str t ++ r)
    (b s : Nat) (refs out : List Nat) (hb : b ≤ t.length)
    (h : Bitmap.build codes (.ok m) b s refs = .ok out) :
    out.length = refs.length + (t.take b).count 43 := by
  induction b generalizing s refs with
  | zero => cases h
  | succ b ih =>
    unfold Bitmap.build at h
    obtain ⟨s1, -, h⟩ := Res.bind_eq_ok.mp h
    rw [Res.ok_bind] at h
    obtain ⟨p, hp, h⟩ := Res.bind_eq_ok.mp h
    have hlt : b < t.length := by omega
    have hget : m[b]? = some (some t[b]) := by
      obtain ⟨r, rfl⟩ := hm
      unfold c_str toMem
      rw [List.getElem?_append_left (by simp; omega)]
      simp [List.getElem?_append_left, hlt]
    have hp' : p = decide (t[b] = 43) := by
      unfold Bitmap.marked at hp
      rw [hget] at hp
      cases hp
      rfl
    have hadd : (Bitmap.addRef refs s1 p).length = refs.length + [t[b]].count 43 := by
      unfold Bitmap.addRef
      rw [hp']
      by_cases hx : t[b] = 43 <;> simp [hx]
    have htake : t.take (b + 1) = t.take b ++ [t[b]] := by
      rw [List.take_add_one, List.getElem?_eq_getElem hlt]
      rfl
    rw [htake, List.count_append]
    split at h
    · rename_i hz
      cases h
      subst hz
      rw [hadd]
      simp
    · split at h
      · cases h
      · rw [ih _ _ (by omega) h, hadd]
        omega

theorem define_marks {E : Env} {b b' : Bitmaps} {v : VarCore} {codes : List Varcode} {anchor : Nat}
    (h : b.define E v codes anchor = .ok b') :
    ∃ refs, b' = { b with current := some ⟨refs, 0⟩ } ∧ MarksOf v refs.length := by
  unfold Bitmaps.define at h
  cases hn : Bitmap.new E v codes anchor with
  | ub => rw [hn] at h; cases h
  | err e =>
    rw [hn] at h
    simp only at h
    split at h <;> cases h
  | ok c =>
    rw [hn] at h
    cases h
    unfold Bitmap.new at hn
    split at hn
    · cases hn
    split at hn
    · cases hn
    obtain ⟨refs, hb, hn⟩ := Res.bind_eq_ok.mp hn
    cases hn
    refine ⟨refs, rfl, ?_⟩
    intro t ht hl
    unfold VarCore.view at ht
    unfold VarCore.enqc at hb
    cases hs : v.isset with
    | false => rw [hs] at ht; cases ht
    | true =>
      rw [hs] at hb ht
      simp only [Bool.not_true, Bool.false_eq_true, if_false] at hb ht
      cases hty : v.info.type <;> rw [hty] at hb ht <;> cases hc : v.cell <;> rw [hc] at ht <;>
        simp only at ht hb <;> try cases ht
      rename_i m
      cases hcs : cstr m with
      | err e => rw [hcs] at ht; cases ht
      | ub => rw [hcs] at ht; cases ht
      | ok s =>
        rw [hcs] at ht
        cases ht
        unfold VarCore.ptr at hb
        rw [hc] at hb
        have := build_length (cstr_eq_ok hcs).2 _ _ _ _ (by omega) hb
        rw [this, ← hl]
        simp

end Wreport
