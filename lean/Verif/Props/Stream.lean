import Verif.Model.Stream
import Verif.Spec.Stream
import Verif.Props.Header

/-! # Properties of reading messages from a stream: C46, C47, C48 -/

namespace Wreport

open Wreport.Spec Wreport.Stream

/-! ## Looking for the signature -/

theorem seekLoop_free (sig : List Byte) (b : Byte) (hs : sig[0]? = some b) (p t : List Byte)
    (hp : Free b p) (pos : Nat) :
    seekLoop sig 0 pos (p ++ t) = seekLoop sig 0 (pos + p.length) t := by
  have hl : 0 < sig.length := by
    cases sig with
    | nil => simp at hs
    | cons _ _ => simp
  induction p generalizing pos with
  | nil => rfl
  | cons c p ih =>
    have hc : sig[0]? ≠ some c := by
      rw [hs]
      intro h
      exact hp c (List.mem_cons_self) (Option.some.inj h).symm
    simp only [List.cons_append, seekLoop, if_pos hl, if_neg hc]
    rw [ih (fun x hx => hp x (List.mem_cons_of_mem _ hx))]
    congr 1
    simp only [List.length_cons]
    omega

theorem seekLoop_none (sig : List Byte) (b : Byte) (hs : sig[0]? = some b) (p : List Byte)
    (hp : Free b p) (pos : Nat) : seekLoop sig 0 pos p = none := by
  have h := seekLoop_free sig b hs p [] hp pos
  rw [List.append_nil] at h
  rw [h]
  cases sig with
  | nil => simp at hs
  | cons _ _ => rfl

theorem seekLoop_rest (sig : List Byte) (d : List Byte) (got pos : Nat) (t : List Byte)
    (hd : sig.drop got = d) (hg : got ≤ sig.length) :
    seekLoop sig got pos (d ++ t) = some ⟨t, pos + d.length⟩ := by
  induction d generalizing got pos with
  | nil =>
    have : ¬ got < sig.length := by
      intro h
      have := congrArg List.length hd
      simp at this
      omega
    cases t <;> simp [seekLoop, this]
  | cons c d ih =>
    have hl : got < sig.length := by
      have := congrArg List.length hd
      simp at this
      omega
    have hc : sig[got]? = some c := by
      have := congrArg (fun l => l[0]?) hd
      simpa using this
    simp only [List.cons_append, seekLoop, if_pos hl, if_pos hc]
    rw [ih (got + 1) (pos + 1)]
    · congr 2
      simp only [List.length_cons]
      omega
    · rw [← List.drop_drop, hd]
      rfl
    · omega

theorem seekLoop_sig (sig : List Byte) (pos : Nat) (t : List Byte) :
    seekLoop sig 0 pos (sig ++ t) = some ⟨t, pos + sig.length⟩ :=
  seekLoop_rest sig sig 0 pos t rfl (Nat.zero_le _)

theorem take_succ_of (sig : List Byte) (k : Nat) (c : Byte) (h : sig[k]? = some c) :
    sig.take (k + 1) = sig.take k ++ [c] := by
  rw [List.take_add_one, h]
  rfl

/-- Whatever the loop finds, the signature was there. -/
theorem seekLoop_sound (sig : List Byte) (s : List Byte) (got pos : Nat) (st : Stream)
    (hg : got ≤ sig.length) (h : seekLoop sig got pos s = some st) :
    (∃ p, sig.take got ++ s = p ++ sig ++ st.rest) ∧
      st.pos + st.rest.length = pos + s.length := by
  induction s generalizing got pos with
  | nil =>
    simp only [seekLoop] at h
    split at h
    · simp at h
    · simp only [Option.some.injEq] at h
      subst h
      have : got = sig.length := by omega
      exact ⟨⟨[], by simp [this]⟩, rfl⟩
  | cons c t ih =>
    simp only [seekLoop] at h
    split at h
    · split at h
      · rename_i hl hc
        obtain ⟨⟨p, hp⟩, hq⟩ := ih (got + 1) (pos + 1) hl h
        refine ⟨⟨p, ?_⟩, ?_⟩
        · rw [← hp, take_succ_of sig got c hc]
          simp
        · simp only [List.length_cons]
          omega
      · obtain ⟨⟨p, hp⟩, hq⟩ := ih 0 (pos + 1) (Nat.zero_le _) h
        refine ⟨⟨sig.take got ++ c :: p, ?_⟩, ?_⟩
        · simp only [List.take_zero, List.nil_append] at hp
          rw [hp]
          simp
        · simp only [List.length_cons]
          omega
    · simp only [Option.some.injEq] at h
      subst h
      have : got = sig.length := by omega
      exact ⟨⟨[], by simp [this]⟩, rfl⟩

/-- After some bytes, either the signature was found among them or the loop goes on
having matched what ends those bytes. -/
theorem seekLoop_state (sig : List Byte) (p t : List Byte) (got pos : Nat)
    (hg : got ≤ sig.length) :
    (∃ q r, p = q ++ r ∧ sig <:+ sig.take got ++ q) ∨
      ∃ got', got' ≤ sig.length ∧
        seekLoop sig got pos (p ++ t) = seekLoop sig got' (pos + p.length) t ∧
        sig.take got' <:+ sig.take got ++ p := by
  induction p generalizing got pos with
  | nil => exact Or.inr ⟨got, hg, rfl, by simp⟩
  | cons c p ih =>
    by_cases hl : got < sig.length
    · by_cases hc : sig[got]? = some c
      · have e : ∀ x, sig.take (got + 1) ++ x = sig.take got ++ c :: x := by
          intro x
          rw [take_succ_of sig got c hc]
          simp
        rcases ih (got + 1) (pos + 1) hl with ⟨q, r, h1, h2⟩ | ⟨got', h1, h2, h3⟩
        · refine Or.inl ⟨c :: q, r, by rw [h1]; rfl, ?_⟩
          rw [← e]
          exact h2
        · refine Or.inr ⟨got', h1, ?_, ?_⟩
          · simp only [List.cons_append, seekLoop, if_pos hl, if_pos hc]
            rw [h2]
            congr 1
            simp only [List.length_cons]
            omega
          · rw [← e]
            exact h3
      · rcases ih 0 (pos + 1) (Nat.zero_le _) with ⟨q, r, h1, h2⟩ | ⟨got', h1, h2, h3⟩
        · refine Or.inl ⟨c :: q, r, by rw [h1]; rfl, ?_⟩
          obtain ⟨w, hw⟩ := h2
          refine ⟨sig.take got ++ c :: w, ?_⟩
          simp only [List.take_zero, List.nil_append] at hw
          rw [← hw]
          simp
        · refine Or.inr ⟨got', h1, ?_, ?_⟩
          · simp only [List.cons_append, seekLoop, if_pos hl, if_neg hc]
            rw [h2]
            congr 1
            simp only [List.length_cons]
            omega
          · obtain ⟨w, hw⟩ := h3
            refine ⟨sig.take got ++ c :: w, ?_⟩
            simp only [List.take_zero, List.nil_append] at hw
            rw [← hw]
            simp
    · have : got = sig.length := by omega
      exact Or.inl ⟨[], c :: p, rfl, by simp [this]⟩

/-- `p` comes before the first occurrence of `sig` in `s`. -/
def Spec.First (sig p s rest : List Byte) : Prop :=
  s = p ++ sig ++ rest ∧ ∀ q r, s = q ++ sig ++ r → p.length ≤ q.length

/-- **C47**, partial: the first occurrence of the signature is found, and reading goes
on just after it, when the bytes before do not end with the beginning of a
signature. Missing: that last condition, without which the claim fails
(`C47_not_overlapping`). -/
theorem C47_first_partial (s : Stream) (sig p rest : List Byte)
    (hf : Spec.First sig p s.rest rest)
    (hp : ∀ w, w ≠ [] → w <+: sig → ¬ w <:+ p) :
    s.seek_past_signature sig = some ⟨rest, s.pos + p.length + sig.length⟩ := by
  obtain ⟨hs, hfirst⟩ := hf
  by_cases hn : sig = []
  · subst hn
    have := hfirst [] s.rest (by simp)
    have hp0 : p = [] := List.length_eq_zero_iff.mp (by simpa using this)
    subst hp0
    simp only [List.append_nil, List.nil_append] at hs
    unfold seek_past_signature
    rw [hs]
    cases rest <;> simp [seekLoop]
  unfold seek_past_signature
  rw [hs, List.append_assoc]
  rcases seekLoop_state sig p (sig ++ rest) 0 s.pos (Nat.zero_le _) with
    ⟨q, r, h1, w, h2⟩ | ⟨got', h1, h2, h3⟩
  · exfalso
    simp only [List.take_zero, List.nil_append] at h2
    have := hfirst w (r ++ (sig ++ rest)) (by
      rw [hs, h1, ← h2]
      simp)
    have hl := congrArg List.length h1
    have hl2 := congrArg List.length h2
    have : 0 < sig.length := List.length_pos_iff.mpr hn
    simp at hl hl2
    omega
  · simp only [List.take_zero, List.nil_append] at h3
    rw [h2]
    have hz : got' = 0 := by
      refine Classical.byContradiction fun hne => ?_
      refine hp (sig.take got') ?_ (List.take_prefix _ _) h3
      intro he
      have := congrArg List.length he
      rw [List.length_take, List.length_nil] at this
      have := List.length_pos_iff.mpr hn
      omega
    subst hz
    rw [seekLoop_sig]

/-- **C47**, the other direction: where reading goes on, the signature was just
read; so it is never found where it is not, and no signature means end of file. -/
theorem C47_sound (s s' : Stream) (sig : List Byte)
    (h : s.seek_past_signature sig = some s') :
    ∃ p, s.rest = p ++ sig ++ s'.rest ∧ s'.pos = s.pos + p.length + sig.length := by
  obtain ⟨⟨p, hp⟩, hq⟩ := seekLoop_sound sig s.rest 0 s.pos s' (Nat.zero_le _) h
  simp only [List.take_zero, List.nil_append] at hp
  refine ⟨p, hp, ?_⟩
  have := congrArg List.length hp
  simp at this
  omega

/-- The claim in full fails: `BBUFR` holds the signature from its second byte, and
is not found. -/
theorem C47_not_overlapping :
    Spec.First (ascii "BUFR") (ascii "B") (ascii "BBUFR") [] ∧
      (⟨ascii "BBUFR", 0⟩ : Stream).seek_past_signature (ascii "BUFR") = none := by
  refine ⟨⟨rfl, ?_⟩, rfl⟩
  rw [show ascii "BBUFR" = [66, 66, 85, 70, 82] from rfl, show ascii "BUFR" = [66, 85, 70, 82] from rfl,
    show ascii "B" = [66] from rfl]
  intro q r h
  cases q with
  | nil => simp at h
  | cons _ _ => simp

/-- The same with whole messages: a BUFR message right after a stray `B` is skipped
without a word. -/
theorem C47_not_message :
    readBufr ⟨ascii "BBUFR" ++ [0, 0, 12, 4] ++ ascii "7777", 0⟩ = .ok none ∧
      (readBufr ⟨ascii "BUFR" ++ [0, 0, 12, 4] ++ ascii "7777", 0⟩).isOk = true ∧
      readBufr ⟨ascii "BUFR" ++ [0, 0, 12, 4] ++ ascii "7777", 0⟩ ≠ .ok none := by
  decide +kernel

example : Spec.First (ascii "BUFR") (ascii "ABA") (ascii "ABABUFR7") (ascii "7") ∧
    (⟨ascii "ABABUFR7", 5⟩ : Stream).seek_past_signature (ascii "BUFR") =
      some ⟨ascii "7", 12⟩ := by
  refine ⟨⟨rfl, ?_⟩, rfl⟩
  rw [show ascii "ABABUFR7" = [65, 66, 65, 66, 85, 70, 82, 55] from rfl,
    show ascii "BUFR" = [66, 85, 70, 82] from rfl, show ascii "ABA" = [65, 66, 65] from rfl]
  intro q r h
  rcases q with _ | ⟨a, _ | ⟨b, _ | ⟨c, q⟩⟩⟩ <;> simp at h ⊢

/-! ## Reading all the messages of a stream -/

theorem readsAll_stream {read : Stream → Res (Option (Msg × Stream))} {b : Byte}
    {Good : List Byte → Prop}
    (hread : ∀ f m t pos, Free b f → Good m →
      read ⟨f ++ m ++ t, pos⟩ =
        .ok (some ((m, pos + f.length), ⟨t, pos + f.length + m.length⟩)))
    (hend : ∀ f pos, Free b f → read ⟨f, pos⟩ = .ok none)
    (parts : List (List Byte × List Byte)) (last : List Byte) (pos : Nat)
    (hp : ∀ p ∈ parts, Free b p.1 ∧ Good p.2) (hl : Free b last) :
    ReadsAll read ⟨stream parts last, pos⟩ (located pos parts) := by
  induction parts generalizing pos with
  | nil => exact .done _ (hend _ _ hl)
  | cons p t ih =>
    obtain ⟨h1, h2⟩ := hp p List.mem_cons_self
    refine .more _ _ _ _ ?_ (ih _ (fun q hq => hp q (List.mem_cons_of_mem _ hq)))
    have : stream (p :: t) last = p.1 ++ p.2 ++ stream t last := by
      simp [stream]
    rw [this, hread _ _ _ _ h1 h2]

/-- There is only one list of messages that repeated reading can give. -/
theorem readsAll_unique {read : Stream → Res (Option (Msg × Stream))} {s : Stream}
    {a b : List Msg} (ha : ReadsAll read s a) (hb : ReadsAll read s b) : a = b := by
  induction ha generalizing b with
  | done s h =>
    cases hb with
    | done => rfl
    | more _ _ _ _ h' => rw [h] at h'; simp at h'
  | more s s' m ms h _ ih =>
    cases hb with
    | done _ h' => rw [h] at h'; simp at h'
    | more _ s2 m2 ms2 h' hr =>
      rw [h] at h'
      simp only [Res.ok.injEq, Option.some.injEq, Prod.mk.injEq] at h'
      obtain ⟨rfl, rfl⟩ := h'
      rw [ih hr]

theorem readBufr_message (f m t : List Byte) (pos : Nat) (hf : Free 66 f)
    (hm : WellFormedBufr m) :
    readBufr ⟨f ++ m ++ t, pos⟩ =
      .ok (some ((m, pos + f.length), ⟨t, pos + f.length + m.length⟩)) := by
  obtain ⟨a, b, c, u, hm, hlen, h12⟩ := hm
  have hml : m.length = 7 + u.length := by
    rw [hm]
    simp [ascii]
    omega
  cases u with
  | nil => simp at hml; omega
  | cons d u =>
    have e : f ++ m ++ t = f ++ (ascii "BUFR" ++ (a :: b :: c :: d :: (u ++ t))) := by
      rw [hm]; simp
    unfold readBufr seek_past_signature
    simp only
    rw [e, seekLoop_free (ascii "BUFR") 66 rfl f _ hf, seekLoop_sig]
    have e4 : (ascii "BUFR").length = 4 := rfl
    simp only [List.length_cons] at hml
    simp only [readBufrBody, fread, e4, List.length_cons, List.length_append,
      show 4 ≤ u.length + t.length + 1 + 1 + 1 + 1 by omega, if_true, Res.ok_bind,
      List.take_succ_cons, List.take_zero, List.drop_succ_cons, List.drop_zero, declaredLength,
      hlen, show ¬ m.length < 12 by omega, if_false,
      show m.length - 8 ≤ u.length + t.length by omega, Res.pure_def]
    rw [show m.length - 8 = u.length by omega, List.take_left, List.drop_left]
    rw [hm]
    simp [e4]
    omega

/-- **C46**: reading repeatedly from a stream of well-formed BUFR messages, with
fillers without the letter `B` between them, gives exactly those messages, in order,
with their offsets, and then the end of file. -/
theorem C46_bufr_stream (parts : List (List Byte × List Byte)) (last : List Byte) (pos : Nat)
    (hp : ∀ p ∈ parts, Free 66 p.1 ∧ WellFormedBufr p.2) (hl : Free 66 last) :
    ReadsAll readBufr ⟨stream parts last, pos⟩ (located pos parts) :=
  readsAll_stream (fun f m t pos hf hm => readBufr_message f m t pos hf hm)
    (fun f pos hf => by
      unfold readBufr seek_past_signature
      simp only
      rw [seekLoop_none (ascii "BUFR") 66 rfl f hf]) parts last pos hp hl

/-- **C46**, for files that the library wrote: messages one after the other. -/
theorem C46_written (msgs : List (List Byte)) (h : ∀ m ∈ msgs, WellFormedBufr m) :
    ∃ ms, ReadsAll readBufr ⟨msgs.flatMap writeBufr, 0⟩ ms ∧ ms.map Prod.fst = msgs := by
  refine ⟨located 0 (msgs.map fun m => ([], m)), ?_, ?_⟩
  · have := C46_bufr_stream (msgs.map fun m => ([], m)) [] 0 (by
      intro p hp
      obtain ⟨m, hm, rfl⟩ := List.mem_map.mp hp
      exact ⟨by intro x hx; simp at hx, h m hm⟩) (by intro x hx; simp at hx)
    have e : msgs.flatMap writeBufr = msgs.flatten := by
      simp [List.flatMap_def, show writeBufr = id from rfl]
    rw [e]
    simpa [stream, List.flatMap_map] using this
  · generalize (0 : Nat) = pos
    induction msgs generalizing pos with
    | nil => rfl
    | cons m t ih =>
      simp only [List.map_cons, located]
      rw [ih (fun x hx => h x (List.mem_cons_of_mem _ hx))]

/-- **C46**, for any stream: what a read gives is a stretch of the stream, at the
offset it gives, with the length its own length field declares. -/
theorem C46_read_sound (s s' : Stream) (m : List Byte) (off : Nat)
    (h : readBufr s = .ok (some ((m, off), s'))) :
    WellFormedBufr m ∧ ∃ f, s.rest = f ++ m ++ s'.rest ∧ off = s.pos + f.length ∧
      s'.pos = off + m.length := by
  unfold readBufr at h
  cases hs : s.seek_past_signature (ascii "BUFR") with
  | none => rw [hs] at h; simp at h
  | some s1 =>
    rw [hs] at h
    obtain ⟨p, hp, hpos⟩ := C47_sound s s1 _ hs
    simp only [Res.bind_eq_ok, Res.pure_def, Res.ok.injEq, Option.some.injEq] at h
    obtain ⟨r, hr, rfl⟩ := h
    simp only [readBufrBody, Res.bind_eq_ok] at hr
    obtain ⟨⟨x, s2⟩, h4, hr⟩ := hr
    split at hr
    · simp at hr
    rename_i h12
    simp only [Res.bind_eq_ok, Res.pure_def, Res.ok.injEq, Prod.mk.injEq] at hr
    obtain ⟨⟨y, s3⟩, h8, ⟨rfl, rfl⟩, rfl⟩ := hr
    simp only [fread] at h4 h8
    split at h4
    · rename_i hl4
      simp only [Res.ok.injEq, Prod.mk.injEq] at h4
      obtain ⟨rfl, rfl⟩ := h4
      split at h8
      · rename_i hl8
        simp only [Res.ok.injEq, Prod.mk.injEq] at h8
        obtain ⟨rfl, rfl⟩ := h8
        obtain ⟨l, q⟩ := s1
        simp only at hl4 hl8 hp hpos h12 ⊢
        rcases l with _ | ⟨a, _ | ⟨b, _ | ⟨c, _ | ⟨d, u⟩⟩⟩⟩ <;>
          simp only [List.length_cons, List.length_nil] at hl4 <;> try omega
        simp only [List.take_succ_cons, List.take_zero, List.drop_succ_cons, List.drop_zero,
          declaredLength] at h12 hl8 ⊢
        generalize hn : a.toNat * 65536 + b.toNat * 256 + c.toNat = n at *
        have e4 : (ascii "BUFR").length = 4 := rfl
        refine ⟨⟨a, b, c, d :: u.take (n - 8), by simp, ?_, ?_⟩, p, ?_, ?_, ?_⟩
        · simp [e4, hn]; omega
        · simp [e4]; omega
        · rw [hp]; simp
        · omega
        · simp [e4]; omega
      · simp at h8
    · simp at h4

/-- Anything laid out in BUFR sections is well formed. -/
theorem wellFormed_of_sections {msg : List Byte} {ed : Byte} {s1 s2 s3 s4 : List Byte}
    (h : Sections msg ed s1 s2 s3 s4) : WellFormedBufr msg := by
  obtain ⟨len, h3, hl, hm⟩ := h.whole
  rcases len with _ | ⟨a, _ | ⟨b, _ | ⟨c, _ | ⟨d, u⟩⟩⟩⟩ <;> simp at h3
  refine ⟨a, b, c, [ed] ++ s1 ++ s2 ++ s3 ++ s4 ++ ascii "7777", ?_, ?_, ?_⟩
  · rw [hm]; simp
  · rw [← hl]
    simp only [ofBe, List.foldl_cons, List.foldl_nil]
    omega
  · rw [hm]
    simp [show (ascii "BUFR").length = 4 from rfl, show (ascii "7777").length = 4 from rfl]
    omega

/-- **C46**, for messages that the library encoded, shorter than 2^24 bytes: a file of
them gives them back. -/
theorem C46_encoded (msgs : List (List Byte))
    (h : ∀ m ∈ msgs, m.length < 2 ^ 24 ∧ ∃ hd n body, BufrEnc.Appends body ∧
      BufrEnc.encode hd n body = .ok m) :
    ∃ ms, ReadsAll readBufr ⟨msgs.flatMap writeBufr, 0⟩ ms ∧ ms.map Prod.fst = msgs := by
  refine C46_written msgs fun m hm => ?_
  obtain ⟨hl, hd, n, body, hb, he⟩ := h m hm
  obtain ⟨s1, s2, s3, s4, d, hs, -⟩ := C30_self_delimiting_partial hb he hl
  exact wellFormed_of_sections hs

example : ∃ hd n body, BufrEnc.Appends body ∧ BufrEnc.encode hd n body = .ok sampleMsg :=
  ⟨_, _, _, sampleBody_appends, sampleMsg_encoded⟩

example : WellFormedBufr (ascii "BUFR" ++ [0, 0, 12, 4] ++ ascii "7777") :=
  ⟨0, 0, 12, [4, 55, 55, 55, 55], rfl, rfl, by decide⟩

example : Free 66 (ascii "filler\r\r\n") := by
  intro x hx
  revert x
  decide +kernel

/-! ## CREX -/

/-- What the loop of the CREX reader has matched, by its counter. -/
inductive Partial : Nat → List Byte → Prop
  | s0 : Partial 0 []
  | s1 : Partial 1 (ascii "+")
  | s2 : Partial 2 (ascii "++")
  | s3 (n : List Byte) : n ≠ [] → (∀ c ∈ n, c = 10 ∨ c = 13) → Partial 3 (ascii "++" ++ n)
  | s5 (n : List Byte) : n ≠ [] → (∀ c ∈ n, c = 10 ∨ c = 13) →
      Partial 5 (ascii "++" ++ n ++ ascii "7")
  | s6 (n : List Byte) : n ≠ [] → (∀ c ∈ n, c = 10 ∨ c = 13) →
      Partial 6 (ascii "++" ++ n ++ ascii "77")
  | s7 (n : List Byte) : n ≠ [] → (∀ c ∈ n, c = 10 ∨ c = 13) →
      Partial 7 (ascii "++" ++ n ++ ascii "777")
  | s8 (n : List Byte) : n ≠ [] → (∀ c ∈ n, c = 10 ∨ c = 13) →
      Partial 8 (ascii "++" ++ n ++ ascii "7777")

theorem crexStep_0 (c : Byte) : crexStep 0 c = if c = 43 then 1 else 0 := rfl
theorem crexStep_1 (c : Byte) : crexStep 1 c = if c = 43 then 2 else 0 := rfl

theorem crexStep_2 (c : Byte) : crexStep 2 c = if c = 10 ∨ c = 13 then 3 else 0 := by
  rw [show crexStep 2 c = if c = 10 ∨ c = 13 then 3 else if c = 13 then 3 else 0 by
    simp [crexStep, ascii]]
  split <;> simp_all

theorem crexStep_3 (c : Byte) :
    crexStep 3 c = if c = 10 ∨ c = 13 then 3 else if c = 55 then 5 else 0 := by
  rw [show crexStep 3 c = if c = 10 ∨ c = 13 then 3 else if c = 55 then 5 else
      if c = 10 then 4 else 0 by
    simp [crexStep, ascii]]
  split
  · rfl
  · split
    · rfl
    · rename_i h _
      rw [if_neg (fun e => h (Or.inl e))]
theorem crexStep_5 (c : Byte) : crexStep 5 c = if c = 55 then 6 else 0 := rfl
theorem crexStep_6 (c : Byte) : crexStep 6 c = if c = 55 then 7 else 0 := rfl
theorem crexStep_7 (c : Byte) : crexStep 7 c = if c = 55 then 8 else 0 := rfl

theorem partial_step (got : Nat) (w : List Byte) (c : Byte) (h : Partial got w) (hg : got < 8) :
    crexStep got c = 0 ∨ Partial (crexStep got c) (w ++ [c]) := by
  cases h with
  | s0 =>
    rw [crexStep_0]
    split
    · rename_i hc; subst hc; exact Or.inr .s1
    · exact Or.inl rfl
  | s1 =>
    rw [crexStep_1]
    split
    · rename_i hc; subst hc; exact Or.inr .s2
    · exact Or.inl rfl
  | s2 =>
    rw [crexStep_2]
    split
    · rename_i hc
      exact Or.inr (.s3 [c] (by simp) (by simpa using hc))
    · exact Or.inl rfl
  | s3 n hn ha =>
    rw [crexStep_3]
    split
    · rename_i hc
      right
      rw [List.append_assoc]
      refine .s3 (n ++ [c]) (by simp) ?_
      intro x hx
      rcases List.mem_append.mp hx with h | h
      · exact ha x h
      · rw [List.mem_singleton.mp h]; exact hc
    · split
      · rename_i hc; subst hc; exact Or.inr (.s5 n hn ha)
      · exact Or.inl rfl
  | s5 n hn ha =>
    rw [crexStep_5]
    split
    · rename_i hc; subst hc; right; rw [List.append_assoc]; exact .s6 n hn ha
    · exact Or.inl rfl
  | s6 n hn ha =>
    rw [crexStep_6]
    split
    · rename_i hc; subst hc; right; rw [List.append_assoc]; exact .s7 n hn ha
    · exact Or.inl rfl
  | s7 n hn ha =>
    rw [crexStep_7]
    split
    · rename_i hc; subst hc; right; rw [List.append_assoc]; exact .s8 n hn ha
    · exact Or.inl rfl
  | s8 => omega

theorem partial_prefix {got : Nat} {w : List Byte} (h : Partial got w) :
    ∃ u, Marker u ∧ w <+: u := by
  have m0 : Marker (ascii "++" ++ ([10] ++ ascii "7777")) := ⟨[10], by simp, by simp, rfl⟩
  cases h with
  | s0 => exact ⟨_, m0, List.nil_prefix⟩
  | s1 => exact ⟨_, m0, _, rfl⟩
  | s2 => exact ⟨_, m0, _, rfl⟩
  | s3 n hn ha => exact ⟨_, ⟨n, hn, ha, rfl⟩, ascii "7777", by simp⟩
  | s5 n hn ha => exact ⟨_, ⟨n, hn, ha, rfl⟩, ascii "777", by simp; rfl⟩
  | s6 n hn ha => exact ⟨_, ⟨n, hn, ha, rfl⟩, ascii "77", by simp; rfl⟩
  | s7 n hn ha => exact ⟨_, ⟨n, hn, ha, rfl⟩, ascii "7", by simp; rfl⟩
  | s8 n hn ha => exact ⟨_, ⟨n, hn, ha, rfl⟩, [], by simp⟩

/-- After some bytes, either the loop has met an end marker among them or it goes on
having matched what ends those bytes. -/
theorem crexLoop_state (p t w : List Byte) (got pos : Nat) (h : Partial got w) :
    (∃ q r u, p = q ++ r ∧ Marker u ∧ u <:+ w ++ q) ∨
      ∃ got' w', Partial got' w' ∧ w' <:+ w ++ p ∧
        crexLoop got pos (p ++ t) =
          (crexLoop got' (pos + p.length) t).map fun r => (p ++ r.1, r.2) := by
  induction p generalizing got pos w with
  | nil =>
    refine Or.inr ⟨got, w, h, by simp, ?_⟩
    simp
  | cons c p ih =>
    by_cases hg : got < 8
    · have key : ∀ w2 w3, Partial (crexStep got c) w2 → w ++ [c] = w3 ++ w2 →
          ((∃ q r u, c :: p = q ++ r ∧ Marker u ∧ u <:+ w ++ q) ∨
          ∃ got' w', Partial got' w' ∧ w' <:+ w ++ c :: p ∧
            crexLoop got pos (c :: p ++ t) =
              (crexLoop got' (pos + (c :: p).length) t).map fun r => (c :: p ++ r.1, r.2)) := by
        intro w2 w3 h2 e
        have e' : ∀ x, w ++ c :: x = w3 ++ (w2 ++ x) := by
          intro x
          rw [← List.append_assoc, ← e]
          simp
        rcases ih w2 (crexStep got c) (pos + 1) h2 with
          ⟨q, r, u, h1, h3, h4⟩ | ⟨got', w', h1, h3, h4⟩
        · refine Or.inl ⟨c :: q, r, u, by rw [h1]; rfl, h3, ?_⟩
          rw [e']
          exact h4.trans (List.suffix_append _ _)
        · refine Or.inr ⟨got', w', h1, ?_, ?_⟩
          · rw [e']
            exact h3.trans (List.suffix_append _ _)
          · simp only [List.cons_append, crexLoop, if_pos hg]
            rw [h4, Option.map_map]
            simp only [List.length_cons, show pos + 1 + p.length = pos + (p.length + 1) by omega]
            rfl
      rcases partial_step got w c h hg with h0 | h1
      · exact key [] (w ++ [c]) (by rw [h0]; exact .s0) (by simp)
      · exact key (w ++ [c]) [] h1 rfl
    · refine Or.inl ⟨[], c :: p, w, rfl, ?_, by simp⟩
      cases h <;> first | omega | skip
      rename_i n hn ha
      exact ⟨n, hn, ha, by simp⟩

/-- The loop stops exactly after a marker it meets having matched nothing. -/
theorem crexLoop_newlines (n t : List Byte) (pos : Nat) (h : ∀ c ∈ n, c = 10 ∨ c = 13) :
    crexLoop 3 pos (n ++ t) = (crexLoop 3 (pos + n.length) t).map fun r => (n ++ r.1, r.2) := by
  induction n generalizing pos with
  | nil => simp
  | cons c n ih =>
    have hc := h c List.mem_cons_self
    simp only [List.cons_append, crexLoop, show 3 < 8 by omega, if_true, crexStep_3, if_pos hc]
    rw [ih _ (fun x hx => h x (List.mem_cons_of_mem _ hx)), Option.map_map]
    simp only [List.length_cons, show pos + 1 + n.length = pos + (n.length + 1) by omega]
    rfl

theorem crexLoop_marker (u t : List Byte) (pos : Nat) (h : Marker u) :
    crexLoop 0 pos (u ++ t) = some (u, ⟨t, pos + u.length⟩) := by
  obtain ⟨n, hn, ha, rfl⟩ := h
  cases n with
  | nil => exact absurd rfl hn
  | cons c n =>
    have hc := ha c List.mem_cons_self
    have e8 : ∀ pos, crexLoop 8 pos t = some ([], ⟨t, pos⟩) := by
      intro pos
      cases t <;> rfl
    have e7 : ∀ pos, crexLoop 3 pos (ascii "7777" ++ t) = some (ascii "7777", ⟨t, pos + 4⟩) := by
      intro pos
      show (Option.map _ (Option.map _ (Option.map _ (Option.map _ (crexLoop 8 _ t))))) = _
      rw [e8]
      rfl
    show (Option.map _ (Option.map _ (crexLoop 2 _ (c :: n ++ ascii "7777" ++ t)))) = _
    simp only [List.cons_append, crexLoop, show 2 < 8 by omega, if_true, crexStep_2, if_pos hc]
    rw [List.append_assoc, crexLoop_newlines n _ _ (fun x hx => ha x (List.mem_cons_of_mem _ hx)), e7]
    simp [show ascii "++" = [43, 43] from rfl]
    refine ⟨⟨rfl, rfl⟩, ?_⟩
    rw [show (ascii "7777").length = 4 from rfl]
    omega

/-- A CREX message: the signature, a body, an end marker. -/
structure Spec.CrexMessage (m body u : List Byte) : Prop where
  parts : m = ascii "CREX++" ++ (body ++ u)
  marker : Marker u
  /-- The end marker is only at the end. -/
  once : ∀ v q r, Marker v → body ++ u = q ++ v ++ r → r = []

theorem readCrex_message (f m t body u : List Byte) (pos : Nat) (hf : Free 67 f)
    (hm : Spec.CrexMessage m body u)
    (hb : ∀ v w, Marker v → w <+: v → w ≠ [] → ¬ w <:+ body) :
    readCrex ⟨f ++ m ++ t, pos⟩ =
      .ok (some ((m, pos + f.length), ⟨t, pos + f.length + m.length⟩)) := by
  have e : f ++ m ++ t = f ++ (ascii "CREX++" ++ (body ++ (u ++ t))) := by
    rw [hm.parts]; simp
  unfold readCrex seek_past_signature
  simp only
  rw [e, seekLoop_free (ascii "CREX++") 67 rfl f _ hf, seekLoop_sig]
  simp only [readCrexBody]
  have hu : u ≠ [] := by
    obtain ⟨n, -, -, rfl⟩ := hm.marker
    exact List.cons_ne_nil _ _
  rcases crexLoop_state body (u ++ t) [] 0 (pos + f.length + (ascii "CREX++").length) .s0 with
    ⟨q, r, v, h1, h2, x, h3⟩ | ⟨got', w', h1, h2, h3⟩
  · exfalso
    have := hm.once v x (r ++ u) h2 (by
      rw [h1]
      simp only [List.nil_append] at h3
      rw [← h3]
      simp)
    simp [hu] at this
  · have hw : w' = [] := by
      refine Classical.byContradiction fun hne => ?_
      obtain ⟨v, hv, hwv⟩ := partial_prefix h1
      exact hb v w' hv hwv hne (by simpa using h2)
    subst hw
    have hg : got' = 0 := by
      generalize hx : ([] : List Byte) = x at h1
      cases h1 <;> first | rfl | (exfalso; revert hx; simp [show ascii "++" = [43, 43] from rfl, show ascii "+" = [43] from rfl])
    subst hg
    rw [h3, crexLoop_marker u t _ hm.marker]
    have e6 : (ascii "CREX++").length = 6 := rfl
    simp only [Option.map_some, Res.ok_bind, Res.pure_def, hm.parts, List.length_append, e6]
    simp only [Res.ok.injEq, Option.some.injEq, Prod.mk.injEq, Stream.mk.injEq, true_and]
    exact ⟨by omega, by omega⟩

/-- **C48**, partial: a file of CREX messages that the library wrote is read back as
exactly those messages, in order, and then the end of file, when in each the end
marker comes only at the end and the body does not end with the beginning of a
marker. Missing: that last condition, without which the claim fails
(`C48_not_plus`). -/
theorem C48_crex_stream_partial (msgs : List (List Byte))
    (h : ∀ m ∈ msgs, ∃ body u, Spec.CrexMessage m body u ∧
      ∀ v w, Marker v → w <+: v → w ≠ [] → ¬ w <:+ body) :
    ∃ ms, ReadsAll readCrex ⟨msgs.flatMap writeCrex, 0⟩ ms ∧ ms.map Prod.fst = msgs := by
  suffices H : ∀ f pos, Free 67 f →
      ∃ ms, ReadsAll readCrex ⟨f ++ msgs.flatMap writeCrex, pos⟩ ms ∧ ms.map Prod.fst = msgs by
    exact H [] 0 (by intro x hx; simp at hx)
  induction msgs with
  | nil =>
    intro f pos hf
    refine ⟨[], .done _ ?_, rfl⟩
    unfold readCrex seek_past_signature
    simp only [List.flatMap_nil, List.append_nil]
    rw [seekLoop_none (ascii "CREX++") 67 rfl f hf]
  | cons m t ih =>
    intro f pos hf
    obtain ⟨body, u, hm, hb⟩ := h m List.mem_cons_self
    obtain ⟨ms, h1, h2⟩ := ih (fun x hx => h x (List.mem_cons_of_mem _ hx)) (ascii "\r\r\n")
      (pos + f.length + m.length) (by
        rw [show ascii "\r\r\n" = [13, 13, 10] from rfl]
        intro x hx
        revert x
        decide +kernel)
    refine ⟨(m, pos + f.length) :: ms, .more _ _ _ _ ?_ h1, by rw [List.map_cons, h2]⟩
    have := readCrex_message f m (ascii "\r\r\n" ++ t.flatMap writeCrex) body u pos hf hm hb
    rw [← this]
    simp [writeCrex]

/-- **C48** with any fillers without the letter `C`, with the offsets. -/
theorem C48_fillers_partial (parts : List (List Byte × List Byte)) (last : List Byte) (pos : Nat)
    (hp : ∀ p ∈ parts, Free 67 p.1 ∧ ∃ body u, Spec.CrexMessage p.2 body u ∧
      ∀ v w, Marker v → w <+: v → w ≠ [] → ¬ w <:+ body) (hl : Free 67 last) :
    ReadsAll readCrex ⟨stream parts last, pos⟩ (located pos parts) :=
  readsAll_stream (Good := fun m => ∃ body u, Spec.CrexMessage m body u ∧
      ∀ v w, Marker v → w <+: v → w ≠ [] → ¬ w <:+ body) (fun f m t pos hf hm => by
      obtain ⟨body, u, hm, hb⟩ := hm
      exact readCrex_message f m t body u pos hf hm hb)
    (fun f pos hf => by
      unfold readCrex seek_past_signature
      simp only
      rw [seekLoop_none (ascii "CREX++") 67 rfl f hf]) parts last pos hp hl

/-- In a body without the digit 7 there is no end marker. -/
theorem once_of_free (body n : List Byte) (hb : Free 55 body) (hn : Free 55 n) :
    ∀ v q r, Marker v → body ++ (ascii "++" ++ (n ++ ascii "7777")) = q ++ v ++ r → r = [] := by
  intro v q r hv e
  obtain ⟨k, -, -, rfl⟩ := hv
  refine Classical.byContradiction fun hr => ?_
  have hr := List.length_pos_iff.mpr hr
  have e1 : (body ++ (ascii "++" ++ n)) ++ ascii "7777" =
      (q ++ (ascii "++" ++ k)) ++ (ascii "7777" ++ r) := by
    simpa using e
  generalize hy : body ++ (ascii "++" ++ n) = y at e1
  generalize q ++ (ascii "++" ++ k) = x at e1
  have hf : Free 55 y := by
    intro c hc
    rw [← hy] at hc
    rcases List.mem_append.mp hc with h | h
    · exact hb c h
    · rcases List.mem_append.mp h with h | h
      · revert h
        rw [show ascii "++" = [43, 43] from rfl]
        intro h
        have : c = 43 := by simpa using h
        subst this
        decide
      · exact hn c h
  have hl := congrArg List.length e1
  have h4 : (ascii "7777").length = 4 := rfl
  simp only [List.length_append, h4] at hl
  have hx : x.length < y.length := by omega
  have e2 := congrArg (fun l => l[x.length]?) e1
  simp only [List.getElem?_append_left hx, List.getElem?_append_right (Nat.le_refl _), Nat.sub_self] at e2
  rw [List.getElem?_eq_getElem hx] at e2
  exact hf _ (List.getElem_mem hx) (Option.some.inj e2)

/-- The claim in full fails: a text that ends with a plus sign at the end of the
data section makes three plus signs before the end marker, and the message cannot
be read. -/
theorem C48_not_plus :
    Spec.CrexMessage (ascii "CREX++A+++\r\r\n7777") (ascii "A+") (ascii "++\r\r\n7777") ∧
      readCrex ⟨writeCrex (ascii "CREX++A+++\r\r\n7777"), 0⟩ = .err .parse := by
  refine ⟨⟨rfl, ⟨[13, 13, 10], by simp, by simp, rfl⟩, ?_⟩, by decide +kernel⟩
  refine once_of_free (ascii "A+") [13, 13, 10] ?_ ?_
  · rw [show ascii "A+" = [65, 43] from rfl]
    intro x hx
    revert x
    decide +kernel
  · intro x hx
    revert x
    decide +kernel

/-- Nor does a read give the message as it was written: encoded messages end with
`7777` and an end of line, which is not part of what is read back. -/
theorem C48_not_trailing :
    readCrex ⟨writeCrex (ascii "CREX++\r\r\nT000101 A001 B12101++\r\r\n 0273++\r\r\n7777\r\r\n"), 0⟩ =
      .ok (some ((ascii "CREX++\r\r\nT000101 A001 B12101++\r\r\n 0273++\r\r\n7777", 0),
        ⟨ascii "\r\r\n\r\r\n", 47⟩)) := by
  decide +kernel

example : ∃ body u, Spec.CrexMessage (ascii "CREX++\r\r\nT A++\r\r\n7777") body u ∧
    ∀ v w, Marker v → w <+: v → w ≠ [] → ¬ w <:+ body := by
  refine ⟨ascii "\r\r\nT A", ascii "++\r\r\n7777",
    ⟨rfl, ⟨[13, 13, 10], by simp, by simp, rfl⟩, once_of_free _ [13, 13, 10] ?_ ?_⟩, ?_⟩
  · rw [show ascii "\r\r\nT A" = [13, 13, 10, 84, 32, 65] from rfl]
    intro x hx
    revert x
    decide +kernel
  · intro x hx
    revert x
    decide +kernel
  · rintro v w ⟨n, -, hn, rfl⟩ hw hne hs
    rw [show ascii "\r\r\nT A" = [13, 13, 10, 84, 32] ++ [65] from rfl] at hs
    have h1 : (65 : Byte) ∈ w := by
      obtain ⟨x, hx⟩ := hs
      have e := List.dropLast_concat_getLast hne
      rw [← e, ← List.append_assoc] at hx
      have := (List.append_inj' hx rfl).2
      rw [← e, this]
      simp
    have h2 := hw.subset h1
    rcases List.mem_append.mp h2 with h | h
    · revert h; decide +kernel
    · rcases List.mem_append.mp h with h | h
      · have := hn _ h
        revert this
        decide
      · revert h; decide +kernel

end Wreport
