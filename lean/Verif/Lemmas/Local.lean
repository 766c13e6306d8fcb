import Verif.Lemmas.Sim
import Verif.Model.Compressed

/-! # Reading depends only on what is read -/

namespace Wreport

theorem Res.bind_assoc {α β γ : Type} (r : Res α) (f : α → Res β) (g : β → Res γ) :
    (r >>= f) >>= g = r >>= fun a => f a >>= g := by
  cases r <;> rfl

namespace Input

/-- The same place in other data. -/
def within (i : Input) (d : List Byte) : Input := { i with data := d }

/-- A way of reading that goes on in the same data, and that reads the same from any
other data that agrees with it up to after what is read. -/
def Local {α : Type} (f : Input → Res (α × Input)) : Prop :=
  ∀ i a j, f i = .ok (a, j) → j.data = i.data ∧ i.s4_cursor ≤ j.s4_cursor ∧
    ∀ p d, p <+: i.data → p <+: d → j.s4_cursor ≤ p.length ∧ j.s4_cursor < d.length →
      f (i.within d) = .ok (a, j.within d)

namespace Local

variable {α β γ : Type}

theorem bind {f : Input → Res (α × Input)} {g : α → Input → Res (β × Input)} (hf : Local f)
    (hg : ∀ a, Local (g a)) : Local (fun i => f i >>= fun r => g r.1 r.2) := by
  intro i b k h
  obtain ⟨⟨a, j⟩, h1, h2⟩ := Res.bind_eq_ok.mp h
  obtain ⟨e1, e2, e3⟩ := hf i a j h1
  obtain ⟨f1, f2, f3⟩ := hg a j b k h2
  refine ⟨f1.trans e1, e2.trans f2, fun p d hp hd hk => ?_⟩
  simp only [e3 p d hp hd (by omega), Res.ok_bind]
  exact f3 p d (by rw [e1]; exact hp) hd hk

theorem bindRes {r : Res α} {g : α → Input → Res (β × Input)} (hg : ∀ a, Local (g a)) :
    Local (fun i => r >>= fun a => g a i) := by
  intro i b k h
  obtain ⟨a, h1, h2⟩ := Res.bind_eq_ok.mp h
  obtain ⟨f1, f2, f3⟩ := hg a i b k h2
  refine ⟨f1, f2, fun p d hp hd hk => ?_⟩
  simp only [h1, Res.ok_bind]
  exact f3 p d hp hd hk

theorem pure (a : α) : Local (fun i => Res.ok (a, i)) := by
  intro i b j h
  cases h
  exact ⟨rfl, le_rfl, fun _ _ _ _ _ => rfl⟩

theorem err (e : Err) : Local (fun _ => (Res.err e : Res (α × Input))) := by
  intro i b j h
  cases h

theorem ub : Local (fun _ => (Res.ub : Res (α × Input))) := by
  intro i b j h
  cases h

theorem ite {p : Prop} [Decidable p] {f g : Input → Res (α × Input)} (hf : Local f) (hg : Local g) :
    Local (fun i => if p then f i else g i) := by
  by_cases hp : p
  · simpa only [hp, if_true] using hf
  · simpa only [hp, if_false] using hg

end Local

theorem byteAt_prefix {d e : List Byte} (h : d <+: e) {k : Nat} (hk : k < d.length) :
    byteAt d k = byteAt e k := by
  obtain ⟨t, rfl⟩ := h
  unfold byteAt
  rw [List.getElem?_append_left hk, List.getElem?_eq_getElem hk]

theorem getLoop_local (n : Nat) : ∀ r, Local (getLoop n r) := by
  induction n with
  | zero => exact fun r => Local.pure r
  | succ n ih =>
    intro r i a j h
    unfold getLoop at h
    obtain ⟨i1, h1, h2⟩ := Res.bind_eq_ok.mp h
    obtain ⟨f1, f2, f3⟩ := ih _ _ a j h2
    simp only at f1 f2
    have hfill : i1.data = i.data ∧ i.s4_cursor ≤ i1.s4_cursor ∧ ∀ p d, p <+: i.data → p <+: d →
        i1.s4_cursor ≤ p.length ∧ i1.s4_cursor < d.length → (i.within d).fill = .ok (i1.within d) := by
      unfold fill at h1
      split at h1
      · next h0 =>
        obtain ⟨b, hb, h1⟩ := Res.bind_eq_ok.mp h1
        cases h1
        refine ⟨rfl, by simp, fun p d hp hd hk => ?_⟩
        unfold fill within
        rw [if_pos (by simpa using h0)]
        simp only at hk ⊢
        rw [← byteAt_prefix hd (by omega), byteAt_prefix hp (by omega), hb]
        rfl
      · next h0 =>
        cases h1
        refine ⟨rfl, le_rfl, fun p d hp hd hk => ?_⟩
        unfold fill within
        rw [if_neg (by simpa using h0)]
    obtain ⟨e1, e2, e3⟩ := hfill
    refine ⟨f1.trans e1, e2.trans f2, fun p d hp hd hk => ?_⟩
    unfold getLoop
    rw [e3 p d hp hd (by omega), Res.ok_bind]
    exact f3 p d (by rw [e1]; exact hp) hd hk

theorem get_bits_local (n : Nat) : Local (fun i => i.get_bits n) := by
  intro i a j h
  simp only [get_bits] at h
  split at h
  · cases h
  · obtain ⟨e1, e2, e3⟩ := getLoop_local n 0 i a j h
    refine ⟨e1, e2, fun p d hp hd hk => ?_⟩
    show get_bits (i.within d) n = _
    unfold get_bits
    rw [if_neg (by
      show i.s4_cursor ≠ d.length
      have := hd.length_le
      omega)]
    exact e3 p d hp hd hk

theorem getBytes_local (n : Nat) : Local (fun i => i.getBytes n) := by
  induction n using Nat.strong_induction_on with
  | _ n ih =>
    by_cases h0 : n = 0
    · have : (fun i : Input => i.getBytes n) = fun i => Res.ok ([], i) := by
        funext i
        rw [getBytes, if_pos h0]
      rw [this]
      exact .pure _
    · have : (fun i : Input => i.getBytes n) = fun i => i.get_bits (if 8 < n then 8 else n) >>= fun r =>
          r.2.getBytes (n - (if 8 < n then 8 else n)) >>= fun r' =>
            Res.ok (UInt8.ofNat r.1 :: r'.1, r'.2) := by
        funext i
        rw [getBytes, if_neg h0]
        rfl
      rw [this]
      refine Local.bind (g := fun a j => j.getBytes (n - (if 8 < n then 8 else n)) >>= fun r' =>
        Res.ok (UInt8.ofNat a :: r'.1, r'.2)) (get_bits_local _) fun a => ?_
      exact Local.bind (g := fun b j => Res.ok (UInt8.ofNat a :: b, j))
        (ih _ (by split <;> omega)) fun b => .pure _

theorem decode_string_local (n : Nat) : Local (fun i => i.decode_string n) := by
  refine Local.bind (g := fun a j => if a.all fun b => b = 0xff || b = 0 then Res.ok (none, j)
    else Res.ok (some (trimEnd a), j)) (getBytes_local n) fun a => ?_
  exact .ite (.pure _) (.pure _)

theorem decode_string_var_local (O : Opts) (v : Var) :
    Local (fun i => i.decode_string_var O v) := by
  refine Local.bind (g := fun a j => setDecoded O v a >>= fun w => Res.ok (w, j))
    (decode_string_local _) fun a => ?_
  exact .bindRes fun w => .pure w

theorem decode_binary_local (O : Opts) (v : Var) : Local (fun i => i.decode_binary O v) := by
  refine Local.bind (g := fun a j => if a.all fun b => b = 0xff then Res.ok (v, j)
    else (v.setc O (toMem a ++ List.replicate (v.info.bit_len / 8 + 1 - a.length) none)).2 >>= fun _ =>
      Res.ok ((v.setc O (toMem a ++ List.replicate (v.info.bit_len / 8 + 1 - a.length) none)).1, j))
    (getBytes_local _) fun a => ?_
  exact .ite (.pure _) (.bindRes fun _ => .pure _)

theorem decode_number_local (E : Env) (O : Opts) (v : Var) :
    Local (fun i => i.decode_number E O v) := by
  refine Local.bind (g := fun a j => isMissing E v.info a >>= fun m =>
    setNumberOrMissing E O v m a >>= fun w => Res.ok (w, j)) (get_bits_local _) fun a => ?_
  exact .bindRes (g := fun m j => setNumberOrMissing E O v m a >>= fun w => Res.ok (w, j))
    fun m => .bindRes fun w => .pure w

theorem bitmap_local (n : Nat) : Local (decode_uncompressed_bitmap n) := by
  induction n with
  | zero => exact .pure _
  | succ n ih =>
    refine Local.bind (g := fun a j => decode_uncompressed_bitmap n j >>= fun r' =>
      Res.ok ((if a = 0 then 43 else 45) :: r'.1, r'.2)) (get_bits_local 1) fun a => ?_
    exact Local.bind (g := fun b j => Res.ok ((if a = 0 then 43 else 45) :: b, j)) ih fun b => .pure _

/-! ## Compressed data -/

theorem base_local (E : Env) (info : Varinfo) :
    Local (fun i => i.decode_compressed_base E info) := by
  refine Local.bind (g := fun a j => all_ones E info.bit_len >>= fun ones => j.get_bits 6 >>= fun r' =>
    if a = ones ∧ r'.1 ≠ 0 then Res.err .consistency
    else Res.ok ((decide (a = ones), a, r'.1), r'.2)) (get_bits_local _) fun a => ?_
  refine Local.bindRes (g := fun ones j => j.get_bits 6 >>= fun r' =>
    if a = ones ∧ r'.1 ≠ 0 then Res.err .consistency
    else Res.ok ((decide (a = ones), a, r'.1), r'.2)) fun ones => ?_
  refine Local.bind (g := fun b j => if a = ones ∧ b ≠ 0 then Res.err .consistency
    else Res.ok ((decide (a = ones), a, b), j)) (get_bits_local _) fun b => ?_
  exact .ite (.err _) (.pure _)

theorem diff_local (E : Env) (O : Opts) (v : Var) (base d : Nat) :
    Local (fun i => i.decode_compressed_diff E O v base d) := by
  refine Local.bind (g := fun a j => diffMissing E v.info base d a >>= fun m =>
    setNumberOrMissing E O v m (toU32 ((base + a : Nat))) >>= fun w => Res.ok (w, j))
    (get_bits_local _) fun a => ?_
  exact .bindRes (g := fun m j => setNumberOrMissing E O v m (toU32 ((base + a : Nat))) >>= fun w =>
    Res.ok (w, j)) fun m => .bindRes fun w => .pure w

theorem diffLoop_local (E : Env) (O : Opts) (v : Var) (base d n : Nat) :
    Local (diffLoop E O base d n v) := by
  induction n generalizing v with
  | zero => exact .pure _
  | succ n ih =>
    refine Local.bind (g := fun a j => diffLoop E O base d n a j >>= fun r' =>
      Res.ok (a :: r'.1, r'.2)) (diff_local E O _ base d) fun a => ?_
    exact Local.bind (g := fun b j => Res.ok (a :: b, j)) (ih a) fun b => .pure _

theorem number_local (E : Env) (O : Opts) (info : Varinfo) (n : Nat) :
    Local (fun i => i.decode_compressed_number E O info n) := by
  refine Local.bind (g := fun a j => if a.1 then Res.ok (List.replicate n (Var.new info), j)
    else if a.2.2 = 0 then setNumber E O (Var.new info) a.2.1 >>= fun v =>
      Res.ok (List.replicate n v, j)
    else diffLoop E O a.2.1 a.2.2 n (Var.new info) j) (base_local E info) fun a => ?_
  refine .ite (.pure _) (.ite ?_ (diffLoop_local E O _ _ _ _))
  exact .bindRes fun v => .pure _

theorem semantic_local (E : Env) (O : Opts) (v : Var) :
    Local (fun i => i.decode_compressed_semantic_number E O v) := by
  refine Local.bind (g := fun a j => all_ones E v.info.bit_len >>= fun ones =>
    j.get_bits 6 >>= fun r' => if r'.1 ≠ 0 then Res.err .consistency
      else setNumberOrMissing E O v (decide (a = ones)) a >>= fun w => Res.ok (w, r'.2))
    (get_bits_local _) fun a => ?_
  refine Local.bindRes (g := fun ones j => j.get_bits 6 >>= fun r' =>
    if r'.1 ≠ 0 then Res.err .consistency
      else setNumberOrMissing E O v (decide (a = ones)) a >>= fun w => Res.ok (w, r'.2)) fun ones => ?_
  refine Local.bind (g := fun b j => if b ≠ 0 then Res.err .consistency
      else setNumberOrMissing E O v (decide (a = ones)) a >>= fun w => Res.ok (w, j))
    (get_bits_local _) fun b => ?_
  exact .ite (.err _) (.bindRes fun w => .pure w)

theorem stringLoop_local (O : Opts) (info : Varinfo) (d n : Nat) : Local (stringLoop O info d n) := by
  induction n with
  | zero => exact .pure _
  | succ n ih =>
    refine Local.bind (g := fun a j => setDecoded O (Var.new info) a >>= fun v =>
      stringLoop O info d n j >>= fun r' => Res.ok (v :: r'.1, r'.2)) (decode_string_local _)
      fun a => ?_
    refine Local.bindRes (g := fun v j => stringLoop O info d n j >>= fun r' =>
      Res.ok (v :: r'.1, r'.2)) fun v => ?_
    exact Local.bind (g := fun b j => Res.ok (v :: b, j)) ih fun b => .pure _

theorem string_local (O : Opts) (info : Varinfo) (n : Nat) :
    Local (fun i => i.decode_compressed_string O info n) := by
  refine Local.bind (g := fun a j => j.get_bits 6 >>= fun r' =>
    if r'.1 = 0 then setDecoded O (Var.new info) a >>= fun v => Res.ok (List.replicate n v, r'.2)
    else if info.bit_len < r'.1 * 8 then Res.err .unimplemented
    else stringLoop O info r'.1 n r'.2) (decode_string_local _) fun a => ?_
  refine Local.bind (g := fun b j =>
    if b = 0 then setDecoded O (Var.new info) a >>= fun v => Res.ok (List.replicate n v, j)
    else if info.bit_len < b * 8 then Res.err .unimplemented
    else stringLoop O info b n j) (get_bits_local _) fun b => ?_
  exact .ite (.bindRes fun v => .pure _) (.ite (.err _) (stringLoop_local O info _ _))

theorem sameLoop_local (O : Opts) (v : Var) (d n : Nat) :
    Local (fun i => sameLoop O v d n i >>= fun j => Res.ok ((), j)) := by
  induction n with
  | zero => exact .pure _
  | succ n ih =>
    have : (fun i => sameLoop O v d (n + 1) i >>= fun j => Res.ok ((), j)) = fun i =>
        i.decode_string (d * 8) >>= fun r => setDecoded O (Var.new v.info) r.1 >>= fun w =>
          v.eq w >>= fun e => if !e then Res.err .consistency else
            sameLoop O v d n r.2 >>= fun j => Res.ok ((), j) := by
      funext i
      show (i.decode_string (d * 8) >>= fun r => setDecoded O (Var.new v.info) r.1 >>= fun w =>
          v.eq w >>= fun e => if !e then Res.err .consistency else sameLoop O v d n r.2) >>= _ = _
      simp only [Res.bind_assoc]
      congr 1
      funext r
      congr 1
      funext w
      congr 1
      funext e
      split <;> rfl
    rw [this]
    refine Local.bind (g := fun a j => setDecoded O (Var.new v.info) a >>= fun w =>
      v.eq w >>= fun e => if !e then Res.err .consistency else
        sameLoop O v d n j >>= fun j => Res.ok ((), j)) (decode_string_local _) fun a => ?_
    refine Local.bindRes (g := fun w j => v.eq w >>= fun e => if !e then Res.err .consistency else
        sameLoop O v d n j >>= fun j => Res.ok ((), j)) fun w => ?_
    exact Local.bindRes (g := fun e j => if !e then Res.err .consistency else
        sameLoop O v d n j >>= fun j => Res.ok ((), j)) fun e => .ite (.err _) ih

theorem same_local (O : Opts) (v : Var) (n : Nat) :
    Local (fun i => i.decode_string_same O v n) := by
  have : (fun i : Input => i.decode_string_same O v n) = fun i => i.decode_string v.info.bit_len >>= fun r =>
      r.2.get_bits 6 >>= fun r' =>
      if r'.1 = 0 then setDecoded O v r.1 >>= fun w => Res.ok (w, r'.2)
      else if v.info.bit_len < r'.1 * 8 then Res.err .unimplemented
      else r'.2.decode_string (r'.1 * 8) >>= fun s => setDecoded O v.unset s.1 >>= fun w =>
        (sameLoop O w r'.1 (n - 1) s.2 >>= fun j => Res.ok ((), j)) >>= fun q => Res.ok (w, q.2) := by
    funext i
    unfold decode_string_same
    simp only [Res.bind_assoc, Res.ok_bind, Res.pure_def]
  rw [this]
  refine Local.bind (g := fun a j => j.get_bits 6 >>= fun r' =>
      if r'.1 = 0 then setDecoded O v a >>= fun w => Res.ok (w, r'.2)
      else if v.info.bit_len < r'.1 * 8 then Res.err .unimplemented
      else r'.2.decode_string (r'.1 * 8) >>= fun s => setDecoded O v.unset s.1 >>= fun w =>
        (sameLoop O w r'.1 (n - 1) s.2 >>= fun j => Res.ok ((), j)) >>= fun q => Res.ok (w, q.2))
    (decode_string_local _) fun a => ?_
  refine Local.bind (g := fun b j =>
      if b = 0 then setDecoded O v a >>= fun w => Res.ok (w, j)
      else if v.info.bit_len < b * 8 then Res.err .unimplemented
      else j.decode_string (b * 8) >>= fun s => setDecoded O v.unset s.1 >>= fun w =>
        (sameLoop O w b (n - 1) s.2 >>= fun j => Res.ok ((), j)) >>= fun q => Res.ok (w, q.2))
    (get_bits_local _) fun b => ?_
  refine .ite (.bindRes fun w => .pure w) (.ite (.err _) ?_)
  refine Local.bind (g := fun s j => setDecoded O v.unset s >>= fun w =>
        (sameLoop O w b (n - 1) j >>= fun j => Res.ok ((), j)) >>= fun q => Res.ok (w, q.2))
    (decode_string_local _) fun s => ?_
  refine Local.bindRes (g := fun w j =>
        (sameLoop O w b (n - 1) j >>= fun j => Res.ok ((), j)) >>= fun q => Res.ok (w, q.2))
    fun w => ?_
  exact Local.bind (g := fun _ j => Res.ok (w, j)) (sameLoop_local O w b (n - 1)) fun _ => .pure w

theorem cbitmap_local (n : Nat) : Local (decode_compressed_bitmap n) := by
  induction n with
  | zero => exact .pure _
  | succ n ih =>
    refine Local.bind (g := fun a j => j.get_bits 6 >>= fun r' => if r'.1 ≠ 0 then Res.err .parse
      else decode_compressed_bitmap n r'.2 >>= fun r'' =>
      Res.ok ((if a = 0 then 43 else 45) :: r''.1, r''.2)) (get_bits_local 1) fun a => ?_
    refine Local.bind (g := fun b j => if b ≠ 0 then Res.err .parse
      else decode_compressed_bitmap n j >>= fun r'' =>
      Res.ok ((if a = 0 then 43 else 45) :: r''.1, r''.2)) (get_bits_local 6) fun b => ?_
    refine .ite (.err _) ?_
    exact Local.bind (g := fun b j => Res.ok ((if a = 0 then 43 else 45) :: b, j)) ih fun b => .pure _

theorem fieldLoop_local (C : Ctx) (f : AssociatedField) (base d n : Nat) :
    Local (fieldLoop C f base d n) := by
  induction n with
  | zero => exact .pure _
  | succ n ih =>
    refine Local.bind (g := fun b j => f.make_attribute C.E C.O C.btable (toU32 ((base + b : Nat))) >>=
      fun a => fieldLoop C f base d n j >>= fun r' => Res.ok (a :: r'.1, r'.2)) (get_bits_local _)
      fun b => ?_
    refine Local.bindRes (g := fun a j => fieldLoop C f base d n j >>= fun r' =>
      Res.ok (a :: r'.1, r'.2)) fun a => ?_
    exact Local.bind (g := fun b j => Res.ok (a :: b, j)) ih fun b => .pure _

theorem fieldDiffLoop_local (C : Ctx) (base d : Nat) (as : List (Option Var)) : ∀ v,
    Local (fieldDiffLoop C base d v as) := by
  induction as with
  | nil => exact fun v => .pure _
  | cons a as ih =>
    intro v
    refine Local.bind (g := fun w j => fieldDiffLoop C base d (addAttr w a) as j >>= fun r' =>
      Res.ok (addAttr w a :: r'.1, r'.2)) (diff_local C.E C.O v base d) fun w => ?_
    exact Local.bind (g := fun b j => Res.ok (addAttr w a :: b, j)) (ih _) fun b => .pure _

theorem attrs_local (C : Ctx) (info : Varinfo) (as : List (Option Var)) :
    Local (fun i => i.decode_compressed_number_attrs C info as) := by
  refine Local.bind (g := fun a j => if a.1 then Res.ok (as.map (addAttr (Var.new info)), j)
    else if a.2.2 = 0 then setNumber C.E C.O (Var.new info) a.2.1 >>= fun v =>
      Res.ok (as.map (addAttr v), j)
    else fieldDiffLoop C a.2.1 a.2.2 (Var.new info) as j) (base_local C.E info) fun a => ?_
  refine .ite (.pure _) (.ite ?_ (fieldDiffLoop_local C _ _ _ _))
  exact .bindRes fun v => .pure _

theorem number_af_local (C : Ctx) (info : Varinfo) (f : AssociatedField) (n : Nat) :
    Local (fun i => i.decode_compressed_number_af C info f n) := by
  refine Local.bind (g := fun b j => j.get_bits 6 >>= fun d => all_ones C.E f.bit_count >>= fun ones =>
    if b = ones then d.2.decode_compressed_number C.E C.O info n
    else fieldLoop C f b d.1 n d.2 >>= fun as => as.2.decode_compressed_number_attrs C info as.1)
    (get_bits_local _) fun b => ?_
  refine Local.bind (g := fun d j => all_ones C.E f.bit_count >>= fun ones =>
    if b = ones then j.decode_compressed_number C.E C.O info n
    else fieldLoop C f b d n j >>= fun as => as.2.decode_compressed_number_attrs C info as.1)
    (get_bits_local _) fun d => ?_
  refine Local.bindRes (g := fun ones j =>
    if b = ones then j.decode_compressed_number C.E C.O info n
    else fieldLoop C f b d n j >>= fun as => as.2.decode_compressed_number_attrs C info as.1)
    fun ones => ?_
  refine .ite (number_local C.E C.O info n) ?_
  exact Local.bind (g := fun as j => j.decode_compressed_number_attrs C info as)
    (fieldLoop_local C f b d n) fun as => attrs_local C info as

theorem getChars_local (n : Nat) : Local (Decoder.getChars n) := by
  induction n with
  | zero => exact .pure _
  | succ n ih =>
    refine Local.bind (g := fun a j => Decoder.getChars n j >>= fun r' =>
      Res.ok (UInt8.ofNat a :: r'.1, r'.2)) (get_bits_local 8) fun a => ?_
    exact Local.bind (g := fun b j => Res.ok (UInt8.ofNat a :: b, j)) ih fun b => .pure _

theorem refval_local (bits : Nat) : Local (fun i => Decoder.decode_c03_refval_override i bits) := by
  refine Local.bind (g := fun a j => shl1 (bits - 1) >>= fun sign =>
    if a &&& toU32 sign ≠ 0 then
      Res.ok (ofU32 (toU32 (-((a &&& (2 ^ 32 - 1 - toU32 sign) : Nat) : Int))), j)
    else Res.ok (ofU32 a, j)) (get_bits_local bits) fun a => ?_
  refine Local.bindRes (g := fun sign j => if a &&& toU32 sign ≠ 0 then
      Res.ok (ofU32 (toU32 (-((a &&& (2 ^ 32 - 1 - toU32 sign) : Nat) : Int))), j)
    else Res.ok (ofU32 a, j)) fun sign => ?_
  exact .ite (.pure _) (.pure _)

theorem uniform_local (C : Ctx) (info : Varinfo) :
    Local (fun i => Decoder.decode_uniform_b_value C i info) := by
  unfold Decoder.decode_uniform_b_value
  split
  · exact decode_string_var_local _ _
  · exact decode_binary_local _ _
  all_goals exact decode_number_local _ _ _

end Input

/-! ## Targets that read -/

/-- Targets that keep a place in data they read. -/
class Reads (σ : Type) where
  input : σ → Input
  put : σ → Input → σ
  input_put : ∀ s i, input (put s i) = i
  put_input : ∀ s, put s (input s) = s
  put_put : ∀ s i j, put (put s i) j = put s j

namespace Reads

variable {σ : Type} [Reads σ]

/-- Going on from another place. -/
def move (s : Interp σ) (i : Input) : Interp σ := { s with tgt := put s.tgt i }

/-- The same state, reading other data. -/
def within (s : Interp σ) (d : List Byte) : Interp σ := move s ((input s.tgt).within d)

/-- Steps that depend only on what they read. -/
def Local {β : Type} (f : Interp σ → Res (β × Interp σ)) : Prop :=
  ∀ s b s', f s = .ok (b, s') → (input s'.tgt).data = (input s.tgt).data ∧
    (input s.tgt).s4_cursor ≤ (input s'.tgt).s4_cursor ∧
    ∀ p d, p <+: (input s.tgt).data → p <+: d →
      (input s'.tgt).s4_cursor ≤ p.length ∧ (input s'.tgt).s4_cursor < d.length →
      f (within s d) = .ok (b, within s' d)

/-- Steps that depend only on what they read, and give no value. -/
def LocalS (f : Interp σ → Res (Interp σ)) : Prop :=
  ∀ s s', f s = .ok s' → (input s'.tgt).data = (input s.tgt).data ∧
    (input s.tgt).s4_cursor ≤ (input s'.tgt).s4_cursor ∧
    ∀ p d, p <+: (input s.tgt).data → p <+: d →
      (input s'.tgt).s4_cursor ≤ p.length ∧ (input s'.tgt).s4_cursor < d.length →
      f (within s d) = .ok (within s' d)

/-- Steps that do not read. -/
def Still {α β : Type} (k : α → Interp σ → Res (β × Interp σ)) : Prop :=
  ∀ a s b s', k a s = .ok (b, s') → input s'.tgt = input s.tgt ∧
    ∀ i, k a (move s i) = .ok (b, move s' i)

theorem Local.intro {α β : Type} {f : Interp σ → Res (β × Interp σ)}
    (rd : Interp σ → Input → Res (α × Input)) (k : α → Interp σ → Res (β × Interp σ))
    (hf : ∀ s, f s = rd s (input s.tgt) >>= fun r => k r.1 (move s r.2))
    (hl : ∀ s, Input.Local (rd s)) (hr : ∀ s i, rd (move s i) = rd s) (hk : Still k) : Local f := by
  intro s b s' h
  rw [hf] at h
  obtain ⟨⟨a, j⟩, h1, h2⟩ := Res.bind_eq_ok.mp h
  obtain ⟨e1, e2, e3⟩ := hl s _ a j h1
  obtain ⟨g1, g2⟩ := hk a _ b s' h2
  have g1' : input s'.tgt = j := g1.trans (input_put _ _)
  rw [g1']
  refine ⟨e1, e2, fun p d hp hd hc => ?_⟩
  rw [hf]
  unfold within
  rw [hr, g1']
  have : input (move s ((input s.tgt).within d)).tgt = (input s.tgt).within d := input_put _ _
  rw [this, e3 p d hp hd hc, Res.ok_bind]
  have := g2 (j.within d)
  simp only [move, put_put] at this ⊢
  exact this

theorem LocalS.intro {α : Type} {f : Interp σ → Res (Interp σ)}
    (rd : Interp σ → Input → Res (α × Input)) (k : α → Interp σ → Res (Interp σ))
    (hf : ∀ s, f s = rd s (input s.tgt) >>= fun r => k r.1 (move s r.2))
    (hl : ∀ s, Input.Local (rd s)) (hr : ∀ s i, rd (move s i) = rd s)
    (hk : ∀ a s s', k a s = .ok s' → input s'.tgt = input s.tgt ∧
      ∀ i, k a (move s i) = .ok (move s' i)) : LocalS f := by
  have := Local.intro (f := fun s => f s >>= fun s' => Res.ok ((), s')) rd
    (fun a s => k a s >>= fun s' => Res.ok ((), s')) (fun s => by rw [hf, Res.bind_assoc]) hl hr (by
      intro a s b s' h
      obtain ⟨t, h1, h2⟩ := Res.bind_eq_ok.mp h
      cases h2
      obtain ⟨g1, g2⟩ := hk a s _ h1
      exact ⟨g1, fun i => by simp only [g2 i]; rfl⟩)
  intro s s' h
  obtain ⟨e1, e2, e3⟩ := this s () s' (by simp only [h]; rfl)
  refine ⟨e1, e2, fun p d hp hd hc => ?_⟩
  obtain ⟨t, h1, h2⟩ := Res.bind_eq_ok.mp (e3 p d hp hd hc)
  rw [h1]
  simp only [Res.ok.injEq, Prod.mk.injEq, true_and] at h2
  rw [h2]

/-- What interpreters reading data that begins in the same way have in common. -/
def rel (σ : Type) [Reads σ] (p d : List Byte) : Rel σ σ where
  le a b := (input b).data = (input a).data ∧ (input a).s4_cursor ≤ (input b).s4_cursor
  refl _ := ⟨rfl, le_rfl⟩
  trans _ _ _ h h' := ⟨h'.1.trans h.1, h.2.trans h'.2⟩
  Q F a b c c' x y := ((input F).s4_cursor ≤ p.length ∧ (input F).s4_cursor < d.length) ∧
      p <+: (input a).data ∧ p <+: d ∧
    b = put a ((input a).within d) ∧ c'.bitmap_table = c.bitmap_table ∧
    c'.chardata_table = c.chardata_table ∧ y = x
  stable _ _ _ _ _ _ _ _ _ h := h

theorem rel_iff {p d : List Byte} {F : σ} {s t : Interp σ} :
    (rel σ p d).R F s t ↔ ((input F).s4_cursor ≤ p.length ∧ (input F).s4_cursor < d.length) ∧
      p <+: (input s.tgt).data ∧ p <+: d ∧
      t = within s d := by
  constructor
  · rintro ⟨⟨a1, a2, a3, a4, a5, a6, a7, a8, a9, a10⟩, ⟨b1, b2, b0, b3, b4, b5, b6⟩⟩
    refine ⟨b1, b2, b0, ?_⟩
    obtain ⟨t1, ⟨u1, u2, u3⟩, t3, t4, t5, t6, t7, t8, ⟨v1, v2, v3⟩, t10⟩ := t
    simp only at a1 a2 a3 a4 a5 a6 a7 a8 a9 a10 b3 b4 b5 b6
    subst a1 a2 a3 a4 a5 a6 a7 a8 a9 b3 b4 b5 b6 a10
    rfl
  · rintro ⟨b1, b2, b0, rfl⟩
    exact ⟨⟨rfl, rfl, rfl, rfl, rfl, rfl, rfl, rfl, rfl, rfl⟩, ⟨b1, b2, b0, rfl, rfl, rfl, rfl⟩⟩

theorem LocalS.sim {f : Interp σ → Res (Interp σ)} (h : LocalS f) (p d : List Byte) (s : Interp σ) :
    (rel σ p d).Sim s (f s) f := by
  intro s' hs
  obtain ⟨e1, e2, e3⟩ := h s s' hs
  refine ⟨⟨e1, e2⟩, fun F t hF hr => ?_⟩
  obtain ⟨r1, r2, r3, rfl⟩ := rel_iff.mp hr
  have hc : (input s'.tgt).s4_cursor ≤ p.length ∧ (input s'.tgt).s4_cursor < d.length :=
    ⟨hF.2.trans r1.1, lt_of_le_of_lt hF.2 r1.2⟩
  exact ⟨_, e3 p d r2 r3 hc, rel_iff.mpr ⟨r1, by rw [e1]; exact r2, r3, rfl⟩⟩

theorem Local.sim {β : Type} {f : Interp σ → Res (β × Interp σ)} (h : Local f) (p d : List Byte)
    (s : Interp σ) : (rel σ p d).SimV s (f s) f := by
  intro b s' hs
  obtain ⟨e1, e2, e3⟩ := h s b s' hs
  refine ⟨⟨e1, e2⟩, fun F t hF hr => ?_⟩
  obtain ⟨r1, r2, r3, rfl⟩ := rel_iff.mp hr
  have hc : (input s'.tgt).s4_cursor ≤ p.length ∧ (input s'.tgt).s4_cursor < d.length :=
    ⟨hF.2.trans r1.1, lt_of_le_of_lt hF.2 r1.2⟩
  exact ⟨_, e3 p d r2 r3 hc, rel_iff.mpr ⟨r1, by rw [e1]; exact r2, r3, rfl⟩⟩

/-- Processing of descriptors depends only on what it reads. -/
theorem run_local (C : Ctx) {T : Target σ} (hT : ∀ p d, (rel σ p d).Sims T T) (depth : Nat)
    (ops : List Varcode) : LocalS (Interp.run C T depth ops) := by
  intro s s' h
  obtain ⟨e1, -⟩ := Interp.sim_run C (hT [] []) depth ops s s' h
  refine ⟨e1.1, e1.2, fun p d hp hd hc => ?_⟩
  obtain ⟨-, e2⟩ := Interp.sim_run C (hT p d) depth ops s s' h
  obtain ⟨t, h1, h2⟩ := e2 s'.tgt (within s d) ⟨rfl, le_rfl⟩ (rel_iff.mpr ⟨hc, hp, hd, rfl⟩)
  obtain ⟨-, -, -, rfl⟩ := rel_iff.mp h2
  exact h1

end Reads

namespace Decoder

instance : Reads Dec where
  input := Dec.input
  put s i := { s with input := i }
  input_put _ _ := rfl
  put_input _ := rfl
  put_put _ _ _ := rfl

open Reads

theorem storeCopy_still (v : Var) (s s' : St) (h : storeCopy s v = .ok s') :
    s'.tgt.input = s.tgt.input ∧ ∀ i, storeCopy (move s i) v = .ok (move s' i) := by
  unfold storeCopy at h ⊢
  obtain ⟨w, h1, h2⟩ := Res.bind_eq_ok.mp h
  cases h2
  exact ⟨rfl, fun i => by rw [h1]; rfl⟩

theorem setLast_still (a : Option Var) (s s' : St) (h : setLast s a = .ok s') :
    s'.tgt.input = s.tgt.input ∧ ∀ i, setLast (move s i) a = .ok (move s' i) := by
  unfold setLast at h ⊢
  cases a with
  | none => cases h; exact ⟨rfl, fun i => rfl⟩
  | some a =>
    simp only at h ⊢
    split at h
    · cases h
    · next v hv =>
      cases h
      refine ⟨rfl, fun i => ?_⟩
      show (match s.tgt.out.getLast? with
        | none => Res.ub
        | some v => Res.ok (setAt (move s i) (s.tgt.out.length - 1) (v.setaMove a))) = _
      rw [hv]
      rfl

theorem attr_local (C : Ctx) (info : Varinfo) (p : Nat) :
    LocalS (fun s : St => decode_and_set_attribute C s info p) := by
  refine LocalS.intro (fun _ i => decode_uniform_b_value C i info)
    (fun v s => if !v.isset then .ok s else match s.tgt.out[p]? with
      | none => .ub
      | some w => w.seta v >>= fun w => .ok (setAt s p w)) (fun s => rfl)
    (fun s => Input.uniform_local C info) (fun _ _ => rfl) ?_
  intro v s s' h
  by_cases hv : (!v.isset) = true
  · rw [if_pos hv] at h
    cases h
    exact ⟨rfl, fun i => if_pos hv⟩
  · rw [if_neg hv] at h
    have e : ∀ i, (move s i).tgt.out = s.tgt.out := fun _ => rfl
    split at h
    · cases h
    · next w hw =>
      obtain ⟨w', h1, h2⟩ := Res.bind_eq_ok.mp h
      cases h2
      refine ⟨rfl, fun i => ?_⟩
      rw [if_neg hv, e, hw]
      simp only
      rw [h1]
      rfl

theorem sims (C : Ctx) (q d : List Byte) : (rel Dec q d).Sims (target C) (target C) where
  bitmap s n := LocalS.sim (f := fun s => define_bitmap C s n) (by
    refine LocalS.intro (fun _ i => i.decode_uncompressed_bitmap n)
      (fun b s => (s.caches.get_bitmap C.E s.bitmaps.pending_definitions b).2 >>= fun info =>
        Var.newStr C.O info b >>= fun v =>
        s.bitmaps.define C.E v.toVarCore ((s.tgt.out ++ [v]).map (·.code)) (s.tgt.out ++ [v]).length
          >>= fun bm => .ok { store { s with
            caches := (s.caches.get_bitmap C.E s.bitmaps.pending_definitions b).1 } v with
            bitmaps := bm }) (fun s => rfl)
      (fun s => Input.bitmap_local n) (fun _ _ => rfl) ?_
    intro b s s' h
    obtain ⟨info, h1, h⟩ := Res.bind_eq_ok.mp h
    obtain ⟨v, h2, h⟩ := Res.bind_eq_ok.mp h
    obtain ⟨bm, h3, h⟩ := Res.bind_eq_ok.mp h
    cases h
    refine ⟨rfl, fun i => ?_⟩
    show ((s.caches.get_bitmap C.E s.bitmaps.pending_definitions b).2 >>= fun info =>
        Var.newStr C.O info b >>= fun v =>
        s.bitmaps.define C.E v.toVarCore ((s.tgt.out ++ [v]).map (·.code)) (s.tgt.out ++ [v]).length
          >>= fun bm => .ok { store { move s i with
            caches := (s.caches.get_bitmap C.E s.bitmaps.pending_definitions b).1 } v with
            bitmaps := bm }) = _
    rw [h1, Res.ok_bind, h2, Res.ok_bind, h3]
    rfl) q d s
  element s info := LocalS.sim (f := fun s => define_variable C s info) (by
    exact LocalS.intro (fun _ i => decode_uniform_b_value C i info) (fun v s => storeCopy s v)
      (fun s => rfl) (fun s => Input.uniform_local C info) (fun _ _ => rfl) storeCopy_still) q d s
  associated s info := LocalS.sim (f := fun s => define_variable_with_associated_field C s info) (by
    refine LocalS.intro (α := Option Var × Var) (fun s i => i.get_bits s.associated_field.bit_count >>= fun r =>
        s.associated_field.make_attribute C.E C.O C.btable r.1 >>= fun a =>
        decode_uniform_b_value C r.2 info >>= fun w => .ok ((a, w.1), w.2))
      (fun a s => storeCopy s a.2 >>= fun s => setLast s a.1) (fun s => ?_) (fun s => ?_)
      (fun _ _ => rfl) ?_
    · simp only [define_variable_with_associated_field, Res.bind_assoc, Res.ok_bind]
      rfl
    · refine Input.Local.bind (g := fun n j =>
        s.associated_field.make_attribute C.E C.O C.btable n >>= fun a =>
        decode_uniform_b_value C j info >>= fun w => .ok ((a, w.1), w.2)) (Input.get_bits_local _)
        fun n => ?_
      refine Input.Local.bindRes (g := fun a j =>
        decode_uniform_b_value C j info >>= fun w => .ok ((a, w.1), w.2)) fun a => ?_
      exact Input.Local.bind (g := fun w j => .ok ((a, w), j)) (Input.uniform_local C info)
        fun w => .pure _
    · rintro ⟨a, w⟩ s s' h
      obtain ⟨t, h1, h2⟩ := Res.bind_eq_ok.mp h
      obtain ⟨e1, e2⟩ := storeCopy_still w s t h1
      obtain ⟨f1, f2⟩ := setLast_still a t s' h2
      exact ⟨f1.trans e1, fun i => by simp only [e2 i, Res.ok_bind, f2 i]⟩) q d s
  factor s info := Local.sim (f := fun s => define_delayed_replication_factor C s info) (by
    refine Local.intro (fun _ i => decode_uniform_b_value C i info)
      (fun v s => v.toVarCore.enqi >>= fun n => .ok (toU32 n, store s v)) (fun s => ?_)
      (fun s => Input.uniform_local C info) (fun _ _ => rfl) ?_
    · simp only [define_delayed_replication_factor, decode_and_add_to_all, Res.bind_assoc,
        Res.ok_bind, Res.pure_def]
      rfl
    · intro v s b s' h
      obtain ⟨n, h1, h2⟩ := Res.bind_eq_ok.mp h
      cases h2
      exact ⟨rfl, fun i => by simp only [h1]; rfl⟩) q d s
  bitmapFactor s info := Local.sim (f := fun s => define_bitmap_delayed_replication_factor C s info) (by
    refine Local.intro (fun _ i => decode_uniform_b_value C i info)
      (fun v s => v.toVarCore.enqi >>= fun n => .ok (toU32 n, s)) (fun s => rfl)
      (fun s => Input.uniform_local C info) (fun _ _ => rfl) ?_
    intro v s b s' h
    obtain ⟨n, h1, h2⟩ := Res.bind_eq_ok.mp h
    cases h2
    exact ⟨rfl, fun i => by simp only [h1]; rfl⟩) q d s
  significance s info := Local.sim (f := fun s => define_associated_field_significance C s info) (by
    refine Local.intro (fun _ i => decode_uniform_b_value C i info)
      (fun v s => Enc.enq63 v.toVarCore >>= fun n => .ok (toU32 n, store s v)) (fun s => ?_)
      (fun s => Input.uniform_local C info) (fun _ _ => rfl) ?_
    · simp only [define_associated_field_significance, decode_and_add_to_all, Res.bind_assoc,
        Res.ok_bind, Res.pure_def]
      rfl
    · intro v s b s' h
      obtain ⟨n, h1, h2⟩ := Res.bind_eq_ok.mp h
      cases h2
      exact ⟨rfl, fun i => by simp only [h1]; rfl⟩) q d s
  substituted s p := LocalS.sim (f := fun s => define_substituted_value C s p) (by
    intro s s' h
    simp only [define_substituted_value] at h
    split at h
    · cases h
    · next v hv =>
      obtain ⟨e1, e2, e3⟩ := attr_local C v.info p s s' h
      refine ⟨e1, e2, fun q d hp hd hc => ?_⟩
      show (match s.tgt.out[p]? with
        | none => Res.ub
        | some v => decode_and_set_attribute C (within s d) v.info p) = _
      rw [hv]
      exact e3 q d hp hd hc) q d s
  attr s info p := LocalS.sim (attr_local C info p) q d s
  raw s c := LocalS.sim (f := fun s => define_raw_character_data C s c) (by
    refine LocalS.intro (α := Var × TableCaches) (fun s i => (s.caches.get_chardata C.E c (WR_VAR_Y c)).2 >>= fun info =>
        getChars info.len i >>= fun r => Var.newStr C.O info r.1 >>= fun v =>
        .ok ((v, (s.caches.get_chardata C.E c (WR_VAR_Y c)).1), r.2))
      (fun a s => storeCopy { s with caches := a.2 } a.1) (fun s => ?_) (fun s => ?_)
      (fun _ _ => rfl) ?_
    · simp only [define_raw_character_data, Res.bind_assoc, Res.ok_bind]
      rfl
    · refine Input.Local.bindRes (g := fun info i => getChars info.len i >>= fun r =>
        Var.newStr C.O info r.1 >>= fun v =>
        .ok ((v, (s.caches.get_chardata C.E c (WR_VAR_Y c)).1), r.2)) fun info => ?_
      refine Input.Local.bind (g := fun b i => Var.newStr C.O info b >>= fun v =>
        .ok ((v, (s.caches.get_chardata C.E c (WR_VAR_Y c)).1), i)) (Input.getChars_local _)
        fun b => ?_
      exact .bindRes fun v => .pure _
    · rintro ⟨v, cs⟩ s s' h
      obtain ⟨e1, e2⟩ := storeCopy_still v _ s' h
      exact ⟨e1, fun i => e2 i⟩) q d s
  refval s c := LocalS.sim (f := fun s => define_c03_refval_override C s c) (by
    refine LocalS.intro (fun s i => decode_c03_refval_override i s.c03_refval_override_bits)
      (fun a s => .ok (s.setOverride c a)) (fun s => rfl) (fun s => Input.refval_local _)
      (fun _ _ => rfl) ?_
    intro a s s' h
    cases h
    exact ⟨rfl, fun i => rfl⟩) q d s

/-- Decoding a subset depends only on what it reads. -/
theorem decodeSubset_local (C : Ctx) (au : Bool) (depth : Nat) (ops : List Varcode)
    (caches : TableCaches) : Input.Local (fun i => decodeSubset C au depth ops caches i >>= fun r =>
      Res.ok ((r.1, r.2.1), r.2.2)) := by
  intro i a j h
  obtain ⟨r, h1, h2⟩ := Res.bind_eq_ok.mp h
  unfold decodeSubset at h1
  obtain ⟨s, h0, h3⟩ := Res.bind_eq_ok.mp h1
  cases h3
  cases h2
  obtain ⟨e1, e2, e3⟩ := run_local C (sims C) depth ops _ s h0
  refine ⟨e1, e2, fun p d hp hd hc => ?_⟩
  have : decodeSubset C au depth ops caches (i.within d) =
      .ok (s.tgt.out, s.caches, s.tgt.input.within d) := by
    unfold decodeSubset
    have h3 := e3 p d hp hd hc
    rw [show start au caches (i.within d) = within (start au caches i) d from rfl, h3]
    rfl
  simp only [this]
  rfl

theorem decodeSubsets_local (C : Ctx) (au : Bool) (depth : Nat) (ops : List Varcode) (n : Nat) :
    ∀ caches, Input.Local (fun i => decodeSubsets C au depth ops n caches i >>= fun r =>
      Res.ok ((r.1, r.2.1), r.2.2)) := by
  induction n with
  | zero => exact fun caches => .pure ([], caches)
  | succ n ih =>
    intro caches
    have : (fun i => decodeSubsets C au depth ops (n + 1) caches i >>= fun r =>
        Res.ok ((r.1, r.2.1), r.2.2)) = fun i =>
        (decodeSubset C au depth ops caches i >>= fun r => Res.ok ((r.1, r.2.1), r.2.2)) >>= fun a =>
        (decodeSubsets C au depth ops n a.1.2 a.2 >>= fun r => Res.ok ((r.1, r.2.1), r.2.2)) >>= fun b =>
          Res.ok ((a.1.1 :: b.1.1, b.1.2), b.2) := by
      funext i
      simp only [decodeSubsets, Res.bind_assoc, Res.ok_bind, Res.pure_def]
    rw [this]
    refine Input.Local.bind (g := fun a j =>
      (decodeSubsets C au depth ops n a.2 j >>= fun r => Res.ok ((r.1, r.2.1), r.2.2)) >>= fun b =>
          Res.ok ((a.1 :: b.1.1, b.1.2), b.2)) (decodeSubset_local C au depth ops caches) fun a => ?_
    exact Input.Local.bind (g := fun b j => Res.ok ((a.1 :: b.1, b.2), j)) (ih a.2) fun b => .pure _

end Decoder

namespace CDecoder

instance : Reads CDec where
  input := CDec.input
  put s i := { s with input := i }
  input_put _ _ := rfl
  put_input _ := rfl
  put_put _ _ _ := rfl

open Reads

/-- The reading part of `decode_uniform_b_value`. -/
def uniform (C : Ctx) (n : Nat) (info : Varinfo) (i : Input) : Res (Var × Input) :=
  match info.type with
  | .string => i.decode_string_same C.O (Var.new info) n
  | .binary => .err .unimplemented
  | .integer | .decimal => i.decode_compressed_semantic_number C.E C.O (Var.new info)

theorem uniform_local (C : Ctx) (n : Nat) (info : Varinfo) : Input.Local (uniform C n info) := by
  unfold uniform
  split
  · exact Input.same_local _ _ _
  · exact .err _
  all_goals exact Input.semantic_local _ _ _

/-- The reading part of `decode_b_value`. -/
def element (C : Ctx) (n : Nat) (info : Varinfo) (i : Input) : Res (List Var × Input) :=
  match info.type with
  | .string => i.decode_compressed_string C.O info n
  | .binary => .err .unimplemented
  | .integer | .decimal => i.decode_compressed_number C.E C.O info n

theorem element_local (C : Ctx) (n : Nat) (info : Varinfo) : Input.Local (element C n info) := by
  unfold element
  split
  · exact Input.string_local _ _ _
  · exact .err _
  all_goals exact Input.number_local _ _ _ _

/-- The reading part of `decode_b_value_af`. -/
def elementAf (C : Ctx) (n : Nat) (f : AssociatedField) (info : Varinfo) (i : Input) :
    Res (List Var × Input) :=
  match info.type with
  | .string => i.decode_compressed_string C.O info n
  | .binary => .err .unimplemented
  | .integer | .decimal => i.decode_compressed_number_af C info f n

theorem elementAf_local (C : Ctx) (n : Nat) (f : AssociatedField) (info : Varinfo) :
    Input.Local (elementAf C n f info) := by
  unfold elementAf
  split
  · exact Input.string_local _ _ _
  · exact .err _
  all_goals exact Input.number_af_local _ _ _ _

theorem storeCopies_still (vs : List Var) (s s' : St) (h : storeCopies s vs = .ok s') :
    s'.tgt.input = s.tgt.input ∧ ∀ i, storeCopies (move s i) vs = .ok (move s' i) := by
  unfold storeCopies at h ⊢
  obtain ⟨w, h1, h2⟩ := Res.bind_eq_ok.mp h
  cases h2
  exact ⟨rfl, fun i => by rw [h1]; rfl⟩

theorem attr_local (C : Ctx) (info : Varinfo) (p : Nat) :
    LocalS (fun s : St => decode_and_set_attribute C s info p) := by
  refine LocalS.intro (fun s i => element C s.tgt.subsets.length info i)
    (fun v s => setAttrs p s.tgt.subsets v >>= fun ss =>
      .ok { s with tgt := { s.tgt with subsets := ss } }) (fun s => rfl)
    (fun s => element_local C _ info) (fun _ _ => rfl) ?_
  intro v s s' h
  obtain ⟨ss, h1, h2⟩ := Res.bind_eq_ok.mp h
  cases h2
  refine ⟨rfl, fun i => ?_⟩
  show (setAttrs p s.tgt.subsets v >>= fun ss =>
      .ok { move s i with tgt := { (move s i).tgt with subsets := ss } }) = _
  rw [h1]
  rfl

theorem all_local {β : Type} (C : Ctx) (info : Varinfo) (g : Var → Res β) :
    Local (fun s : St => decode_and_add_to_all C s info >>= fun r => g r.1 >>= fun b =>
      .ok (b, r.2)) := by
  refine Local.intro (fun s i => uniform C s.tgt.subsets.length info i)
    (fun v s => storeCopies s (List.replicate s.tgt.subsets.length v) >>= fun s =>
      lastOfFirst s >>= fun v => g v >>= fun b => .ok (b, s)) (fun s => ?_)
    (fun s => uniform_local C _ info) (fun _ _ => rfl) ?_
  · simp only [decode_and_add_to_all, Res.bind_assoc, Res.ok_bind, Res.pure_def]
    rfl
  · intro v s b s' h
    obtain ⟨t, h1, h⟩ := Res.bind_eq_ok.mp h
    obtain ⟨w, h2, h⟩ := Res.bind_eq_ok.mp h
    obtain ⟨x, h3, h⟩ := Res.bind_eq_ok.mp h
    cases h
    obtain ⟨e1, e2⟩ := storeCopies_still _ s _ h1
    refine ⟨e1, fun i => ?_⟩
    show (storeCopies (move s i) (List.replicate s.tgt.subsets.length v) >>= fun s =>
      lastOfFirst s >>= fun v => g v >>= fun b => .ok (b, s)) = _
    rw [e2 i, Res.ok_bind, show lastOfFirst (move s' i) = lastOfFirst s' from rfl, h2, Res.ok_bind, h3]
    rfl

/-- The end of `define_bitmap`. -/
def bitmapEnd (C : Ctx) (s : St) : Res St :=
  lastOfFirst s >>= fun v =>
    s.bitmaps.define C.E v.toVarCore ((s.tgt.subsets.headD []).map (·.code))
      (s.tgt.subsets.headD []).length >>= fun bm => .ok { s with bitmaps := bm }

/-- The part of `define_bitmap` after reading. -/
def bitmapStep (C : Ctx) (b : List Byte) (s : St) : Res St :=
  (s.caches.get_bitmap C.E s.bitmaps.pending_definitions b).2 >>= fun info =>
    Var.newStr C.O info b >>= fun v =>
    storeCopies { s with caches := (s.caches.get_bitmap C.E s.bitmaps.pending_definitions b).1 }
      (List.replicate s.tgt.subsets.length v) >>= bitmapEnd C

theorem define_bitmap_eq (C : Ctx) (n : Nat) (s : St) : define_bitmap C s n =
    s.tgt.input.decode_compressed_bitmap n >>= fun r => bitmapStep C r.1 (move s r.2) := by
  unfold define_bitmap
  congr 1

theorem bitmapEnd_still (C : Ctx) (s s' : St) (h : bitmapEnd C s = .ok s') :
    s'.tgt.input = s.tgt.input ∧ ∀ i, bitmapEnd C (move s i) = .ok (move s' i) := by
  unfold bitmapEnd at h ⊢
  obtain ⟨v, h1, h⟩ := Res.bind_eq_ok.mp h
  obtain ⟨bm, h2, h⟩ := Res.bind_eq_ok.mp h
  cases h
  refine ⟨rfl, fun i => ?_⟩
  rw [show lastOfFirst (move s i) = lastOfFirst s from rfl, h1, Res.ok_bind]
  show (s.bitmaps.define C.E v.toVarCore ((s.tgt.subsets.headD []).map (·.code))
      (s.tgt.subsets.headD []).length >>= _) = _
  rw [h2]
  rfl

theorem sims (C : Ctx) (q d : List Byte) : (rel CDec q d).Sims (target C) (target C) where
  bitmap s n := LocalS.sim (f := fun s => define_bitmap C s n) (by
    refine LocalS.intro (fun _ i => i.decode_compressed_bitmap n) (bitmapStep C)
      (define_bitmap_eq C n) (fun s => Input.cbitmap_local n) (fun _ _ => rfl) ?_
    intro b s s' h
    unfold bitmapStep at h
    obtain ⟨info, h1, h⟩ := Res.bind_eq_ok.mp h
    obtain ⟨v, h2, h⟩ := Res.bind_eq_ok.mp h
    obtain ⟨t, h3, h⟩ := Res.bind_eq_ok.mp h
    obtain ⟨e1, e2⟩ := storeCopies_still _ _ t h3
    obtain ⟨f1, f2⟩ := bitmapEnd_still C t s' h
    refine ⟨f1.trans e1, fun i => ?_⟩
    unfold bitmapStep
    have e3 := e2 i
    simp only [move] at e3 h1 h2 f2 ⊢
    rw [h1, Res.ok_bind, h2, Res.ok_bind]
    exact (congrArg (· >>= bitmapEnd C) e3).trans (f2 i)) q d s
  element s info := LocalS.sim (f := fun s => define_variable C s info) (by
    exact LocalS.intro (fun s i => element C s.tgt.subsets.length info i)
      (fun v s => storeCopies s v)
      (fun s => rfl) (fun s => element_local C _ info) (fun _ _ => rfl) storeCopies_still) q d s
  associated s info := LocalS.sim (f := fun s => define_variable_with_associated_field C s info) (by
    exact LocalS.intro (fun s i => elementAf C s.tgt.subsets.length s.associated_field info i)
      (fun v s => storeCopies s v)
      (fun s => rfl) (fun s => elementAf_local C _ _ info) (fun _ _ => rfl) storeCopies_still) q d s
  factor s info := Local.sim (f := fun s => define_delayed_replication_factor C s info) (by
    have := all_local C info (fun v => v.toVarCore.enqi >>= fun n => Res.ok (toU32 n))
    simp only [Res.bind_assoc, Res.ok_bind] at this
    exact this) q d s
  bitmapFactor s info := Local.sim (f := fun s => define_bitmap_delayed_replication_factor C s info) (by
    refine Local.intro (fun s i => uniform C s.tgt.subsets.length info i)
      (fun v s => v.toVarCore.enqi >>= fun n => .ok (toU32 n, s)) (fun s => rfl)
      (fun s => uniform_local C _ info) (fun _ _ => rfl) ?_
    intro v s b s' h
    obtain ⟨n, h1, h2⟩ := Res.bind_eq_ok.mp h
    cases h2
    exact ⟨rfl, fun i => by simp only [h1]; rfl⟩) q d s
  significance s info := Local.sim (f := fun s => define_associated_field_significance C s info) (by
    have := all_local C info (fun v => Enc.enq63 v.toVarCore >>= fun n => Res.ok (toU32 n))
    simp only [Res.bind_assoc, Res.ok_bind] at this
    exact this) q d s
  substituted s p := LocalS.sim (f := fun s => define_substituted_value C s p) (by
    intro s s' h
    simp only [define_substituted_value] at h
    split at h
    · cases h
    · next ss rest hss =>
      split at h
      · cases h
      · next v hv =>
        obtain ⟨e1, e2, e3⟩ := attr_local C v.info p s s' h
        refine ⟨e1, e2, fun q d hp hd hc => ?_⟩
        show (match s.tgt.subsets with
          | [] => Res.err .notfound
          | s0 :: _ => match s0[p]? with
            | none => Res.ub
            | some v => decode_and_set_attribute C (within s d) v.info p) = _
        rw [hss]
        simp only
        rw [hv]
        exact e3 q d hp hd hc) q d s
  attr s info p := LocalS.sim (attr_local C info p) q d s
  raw s c := by
    intro s' h
    obtain ⟨_, -, h2⟩ := Res.bind_eq_ok.mp h
    cases h2
  refval s c := Rel.Sim.err rfl

/-- Decoding compressed data depends only on what it reads. -/
theorem decodeSubsets_local (C : Ctx) (au : Bool) (depth : Nat) (ops : List Varcode) (n : Nat)
    (caches : TableCaches) : Input.Local (fun i => decodeSubsets C au depth ops n caches i >>= fun r =>
      Res.ok ((r.1, r.2.1), r.2.2)) := by
  intro i a j h
  obtain ⟨r, h1, h2⟩ := Res.bind_eq_ok.mp h
  unfold decodeSubsets at h1
  obtain ⟨s, h0, h3⟩ := Res.bind_eq_ok.mp h1
  cases h3
  cases h2
  obtain ⟨e1, e2, e3⟩ := run_local C (sims C) depth ops _ s h0
  refine ⟨e1, e2, fun p d hp hd hc => ?_⟩
  have : decodeSubsets C au depth ops n caches (i.within d) =
      .ok (s.tgt.subsets, s.caches, s.tgt.input.within d) := by
    unfold decodeSubsets
    have h3 := e3 p d hp hd hc
    rw [show start au caches n (i.within d) = within (start au caches n i) d from rfl, h3]
    rfl
  simp only [this]
  rfl

end CDecoder

end Wreport
