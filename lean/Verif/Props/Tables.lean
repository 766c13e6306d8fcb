import Verif.Lemmas.Tables
import Verif.Props.Samples
import Mathlib.Data.List.Induction

/-!
# C40, C41, C42, C59, C60: tables and descriptor lists
-/

namespace Wreport

open Spec

/-! ## C40 -/

/-- C40: in a table in use, a descriptor that has an entry is found, any other
gives the not-found error. -/
theorem C40_lookup (E : Env) (t : Vartable) (ht : t.Reachable E) (code : Varcode) :
    (∃ e ∈ t.entries, e.varinfo.code = code ∧ t.query code = .ok e.varinfo ∧
      t.contains code = .ok true ∧ ∀ f ∈ t.entries, f.varinfo.code = code → f = e) ∨
    ((∀ e ∈ t.entries, e.varinfo.code ≠ code) ∧ t.query code = .err .notfound ∧
      t.contains code = .ok false) := by
  have hi := ht.inv
  by_cases h : ∃ e ∈ t.entries, e.varinfo.code = code
  · left
    obtain ⟨e, he, rfl⟩ := h
    obtain ⟨i, hi'⟩ := List.mem_iff_getElem?.mp he
    have hq := Vartable.query_entry_found hi.sorted hi'
    refine ⟨e, he, rfl, ?_, ?_, fun f hf hc => ?_⟩
    · unfold Vartable.query; rw [hq]; rfl
    · unfold Vartable.contains; rw [hq]; rfl
    · obtain ⟨j, hj⟩ := List.mem_iff_getElem?.mp hf
      have h1 := Vartable.find_entry hi.sorted hi'
      have h2 := Vartable.find_entry hi.sorted hj
      rw [hc, h1] at h2
      exact (Option.some.inj h2).symm
  · right
    have hall : ∀ e ∈ t.entries, e.varinfo.code ≠ code := fun e he hc => h ⟨e, he, hc⟩
    have hn : code ∉ t.codes := by
      unfold Vartable.codes
      rw [List.mem_map]
      rintro ⟨e, he, hc⟩
      exact hall e he hc
    have hq := Vartable.query_entry_missing hi.sorted hn
    refine ⟨hall, ?_, ?_⟩
    · unfold Vartable.query; rw [hq]; rfl
    · unfold Vartable.contains; rw [hq]; rfl

/-- C40: a loaded BUFR table has one entry for each line of the file, made from
that line, and the codes increase strictly. -/
theorem C40_contents_bufr (E : Env) (data : List Byte) (t : Vartable)
    (h : Vartable.load_bufr E data = .ok t) :
    Increasing (t.entries.map (·.varinfo.code)) ∧
    List.Forall₂ (fun line (e : VartableEntry) => lineCode line = .ok e.varinfo.code ∧
      bufrEntry E e.varinfo.code line = .ok e.varinfo) (fgetsLines data) t.entries := by
  obtain ⟨h1, new, h2, h3⟩ := Vartable.foldBufr_ok _ (Vartable.inv_empty E) h
  refine ⟨h1.sorted, ?_⟩
  rw [h2]
  simpa using h3

/-- C40: a loaded CREX table has one entry for each line with CREX data. -/
theorem C40_contents_crex (E : Env) (data : List Byte) (t : Vartable)
    (h : Vartable.load_crex E data = .ok t) :
    Increasing (t.entries.map (·.varinfo.code)) ∧
    List.Forall₂ (fun line (e : VartableEntry) => lineCode line = .ok e.varinfo.code ∧
      crexEntry E e.varinfo.code line = .ok e.varinfo)
      ((fgetsLines data).filter fun l => 157 ≤ l.length) t.entries := by
  obtain ⟨h1, new, h2, h3⟩ := Vartable.foldCrex_ok _ (Vartable.inv_empty E) h
  refine ⟨h1.sorted, ?_⟩
  rw [h2]
  simpa using h3

/-- C40: a line whose code is not above the codes of all the lines before makes
loading fail with a parse error. -/
theorem C40_rejects (E : Env) (data : List Byte) (pre post : List (List Byte)) (l : List Byte)
    (t : Vartable) (c : Varcode) (hd : fgetsLines data = pre ++ l :: post)
    (hpre : pre.foldlM (Vartable.addBufrLine E) ⟨[]⟩ = .ok t) (hl : 119 ≤ l.length)
    (hc : lineCode l = .ok c) (hle : ∃ e ∈ t.entries, c ≤ e.varinfo.code) :
    Vartable.load_bufr E data = .err .parse := by
  unfold Vartable.load_bufr
  rw [hd, List.foldlM_append, hpre, Res.ok_bind, List.foldlM_cons]
  have hi := (Vartable.foldBufr_ok _ (Vartable.inv_empty E) hpre).1
  suffices Vartable.addBufrLine E t l = .err .parse by rw [this]; rfl
  unfold Vartable.addBufrLine
  rw [if_neg (by omega), hc, Res.ok_bind]
  suffices ∀ info : Varinfo, info.code = c → t.obtain info = .err .parse by
    rw [this _ (by rfl)]; rfl
  intro info hinfo
  unfold Vartable.obtain
  obtain ⟨e, he, hce⟩ := hle
  rcases List.eq_nil_or_concat t.entries with h0 | ⟨es, last, h0⟩
  · rw [h0] at he; cases he
  · rw [List.concat_eq_append] at h0
    have hlast : t.entries.getLast? = some last := by rw [h0]; simp
    rw [hlast]
    simp only
    rw [if_pos]
    have hs := hi.sorted
    unfold Increasing Vartable.codes at hs
    rw [h0] at he hs
    rw [hinfo]
    rcases List.mem_append.mp he with he | he
    · rw [List.map_append, List.pairwise_append] at hs
      have := hs.2.2 e.varinfo.code (List.mem_map_of_mem he) last.varinfo.code (by simp)
      omega
    · rw [List.mem_singleton] at he
      subst he
      exact hce

/-- The bytes of a text, as `ascii` for texts of ASCII characters; the kernel computes them
faster. -/
def utf8 (s : String) : List Byte := s.toByteArray.data.toList

example : utf8 "WMO\n" = ascii "WMO\n" := by decide +kernel

/-- Two lines of a BUFR element table, in the format of `/repo/tables`. -/
def sampleTableText : List Byte := utf8 (
  " 001001 WMO BLOCK NUMBER                                                 NUMERIC                    0            0   7 NUMERIC                   0         2\n" ++
  " 012101 TEMPERATURE/AIR TEMPERATURE                                      K                          2            0  16 C                         2         4\n")

/-- The same lines exchanged. -/
def sampleTableSwapped : List Byte := utf8 (
  " 012101 TEMPERATURE/AIR TEMPERATURE                                      K                          2            0  16 C                         2         4\n" ++
  " 001001 WMO BLOCK NUMBER                                                 NUMERIC                    0            0   7 NUMERIC                   0         2\n")

/-- The entries of `sampleTableText`. -/
def sampleTable : Vartable :=
  ⟨[⟨made (Varinfo.raw (WR_VAR 0 1 1) .integer (ascii "NUMERIC") 0 3 0 7), []⟩, ⟨sampleTemp, []⟩]⟩

theorem sampleTable_loaded : Vartable.load_bufr Env0 sampleTableText = .ok sampleTable := by
  decide +kernel

theorem sampleTable_reachable : sampleTable.Reachable Env0 := .bufr _ _ sampleTable_loaded

example : sampleTable.query (WR_VAR 0 12 101) = .ok sampleTemp ∧
    sampleTable.query (WR_VAR 0 12 102) = .err .notfound := by decide +kernel

example : Vartable.load_bufr Env0 sampleTableSwapped = .err .parse := by decide +kernel

/-! ## C41 -/

/-- C41: metadata returned for a request has exactly the requested scale, width
and reference, and describes the same element. -/
theorem C41_exact (E : Env) (t : Vartable) (ht : t.Reachable E) (q : Request) (k : Nat)
    (v : Varinfo) (h : t.answer E q = .ok (k, v)) :
    ∃ e ∈ t.entries, e.varinfo.code = q.code ∧ q.Answers e.varinfo v := by
  have hi := ht.inv
  obtain ⟨x, hx, h1⟩ := t.query_entry_safe q.code
  cases x with
  | none =>
    unfold Vartable.answer Vartable.query_altered at h
    rw [hx] at h
    cases h
  | some p =>
    obtain ⟨i, e⟩ := p
    obtain ⟨he, hc⟩ := h1 i e rfl
    have hres := Vartable.query_altered_result hi he q.scale q.bit_len q.bit_ref
    unfold Vartable.answer at h
    rw [hc, h, Res.ok_bind] at hres
    refine ⟨e, List.mem_of_getElem? he, hc, ?_⟩
    unfold Vartable.alteredOf at hres
    split at hres
    · next hk =>
      simp only [Res.ok.injEq] at hres
      subst hres
      simp only [Varinfo.key, Prod.mk.injEq] at hk
      exact ⟨hc, hk.1, hk.2.1, hk.2.2, rfl, Iff.rfl, Iff.rfl⟩
    · obtain ⟨u, -, ha⟩ := Res.bind_eq_ok.mp hres.symm
      obtain ⟨a1, a2, a3, a4, a5, a6, a7⟩ := alter_fields ha
      refine ⟨a1.trans hc, a2, a3, a4, a5, ?_, ?_⟩
      · rw [a6]
        unfold alteredType
        split
        · next h => rw [h]; split <;> simp
        · next h => rw [h]; split <;> simp
        · exact Iff.rfl
      · rw [a6]
        unfold alteredType
        split
        · next h => rw [h]; split <;> simp
        · next h => rw [h]; split <;> simp
        · exact Iff.rfl

/-- C41: after a request succeeded, repeating it at any later time returns the
same metadata object with the same contents, whatever was asked in between, and
does not change the table. -/
theorem C41_stable (E : Env) (t : Vartable) (ht : t.Reachable E) (q : Request)
    (hq : inInt q.bit_ref = true) (k : Nat) (v : Varinfo) (h : t.answer E q = .ok (k, v))
    (qs : List Request) (hqs : ∀ x ∈ qs, inInt x.bit_ref = true) :
    let t' := qs.foldl (Vartable.after E) (t.after E q)
    t'.answer E q = .ok (k, v) ∧ t'.after E q = t' := by
  intro t'
  have hi := ht.inv
  have hr1 : (t.after E q).Reachable E := .request t q ht hq
  have hi' : t'.Inv E := (Vartable.after_reachable hr1 qs hqs).inv
  have hext : (t.after E q).Ext t' := Vartable.after_ext _ qs
  obtain ⟨x, hx, h1⟩ := t.query_entry_safe q.code
  cases x with
  | none =>
    unfold Vartable.answer Vartable.query_altered at h
    rw [hx] at h
    cases h
  | some p =>
    obtain ⟨i, e⟩ := p
    obtain ⟨he, hc⟩ := h1 i e rfl
    -- the entry after the request
    have hstep : ∃ alts, (t.after E q).entries[i]? = some { e with alterations := alts } ∧
        ({ e with alterations := alts } : VartableEntry).get_alteration q.scale q.bit_len q.bit_ref
          = some (k, v) := by
      unfold Vartable.answer Vartable.query_altered at h
      unfold Vartable.after Vartable.query_altered
      rw [hx] at h ⊢
      simp only at h ⊢
      cases hg : e.get_alteration q.scale q.bit_len q.bit_ref with
      | some r =>
        rw [hg] at h
        simp only [Res.ok.injEq] at h
        subst h
        exact ⟨e.alterations, he, hg⟩
      | none =>
        rw [hg] at h
        simp only at h
        unfold Vartable.addAltered at h ⊢
        split at h
        · next w hw =>
          simp only [Res.ok.injEq, Prod.mk.injEq] at h
          obtain ⟨rfl, rfl⟩ := h
          refine ⟨w :: e.alterations, by
            have := (List.getElem?_eq_some_iff.mp he).1
            simp [this], ?_⟩
          unfold VartableEntry.get_alteration at hg ⊢
          split at hg
          · cases hg
          · next hb =>
            simp only
            rw [if_neg hb, findAlt, if_pos]
            obtain ⟨u, -, ha⟩ := Res.bind_eq_ok.mp hw
            obtain ⟨a1, a2, a3, a4, a5, a6, a7⟩ := alter_fields ha
            rw [matchesAlt_iff]
            simp [Varinfo.key, a2, a3, a4]
        · cases h
        · cases h
    obtain ⟨alts, ha, hg⟩ := hstep
    obtain ⟨pre, hp⟩ := hext.entry i _ ha
    have hkeys := (hi'.entries _ (List.mem_of_getElem? hp)).keys
    have hg' : ({ e with alterations := pre ++ alts } : VartableEntry).get_alteration q.scale
        q.bit_len q.bit_ref = some (k, v) := by
      unfold VartableEntry.get_alteration at hg ⊢
      simp only at hg ⊢
      split at hg
      · next hb => rw [if_pos hb]; exact hg
      · next hb =>
        rw [if_neg hb, findAlt_append, hg]
        obtain ⟨h1, h2, -⟩ := findAlt_some hg
        intro a ha' hk
        simp only [List.map_append, List.nodup_cons, List.nodup_append] at hkeys
        exact hkeys.2.2.2 _ (List.mem_map_of_mem ha') _ (List.mem_map_of_mem h1) (hk.trans h2.symm)
    have hq' := Vartable.query_entry_found hi'.sorted hp
    simp only [hc] at hq'
    unfold Vartable.answer Vartable.after Vartable.query_altered
    rw [hq']
    simp only
    rw [hg']
    exact ⟨rfl, rfl⟩

/-- C41: requests do not disturb metadata handed out before: every metadata
object, original or altered, keeps its contents, and lookups of the original are
unaffected. -/
theorem C41_undisturbed (E : Env) (t : Vartable) (ht : t.Reachable E) (qs : List Request)
    (hqs : ∀ x ∈ qs, inInt x.bit_ref = true) :
    let t' := qs.foldl (Vartable.after E) t
    (∀ code rank v, t.contentsOf code rank = some v → t'.contentsOf code rank = some v) ∧
    (∀ code, t'.query code = t.query code) := by
  intro t'
  have hi := ht.inv
  have hi' : t'.Inv E := (Vartable.after_reachable ht qs hqs).inv
  have hext : t.Ext t' := Vartable.after_ext _ qs
  constructor
  · intro code rank v h
    unfold Vartable.contentsOf at h ⊢
    rw [Option.bind_eq_some_iff] at h
    obtain ⟨e, he, h⟩ := h
    have hc := List.find?_some he
    simp only [beq_iff_eq] at hc
    obtain ⟨i, hi0⟩ := List.mem_iff_getElem?.mp (List.mem_of_find?_eq_some he)
    obtain ⟨pre, hp⟩ := hext.entry i e hi0
    have hf := Vartable.find_entry hi'.sorted hp
    simp only [hc] at hf
    rw [hf]
    simp only [Option.bind_some]
    cases rank with
    | zero => exact h
    | succ n =>
      simp only at h ⊢
      rw [List.reverse_append, List.getElem?_append_left, h]
      exact (List.getElem?_eq_some_iff.mp h).1
  · intro code
    rcases C40_lookup E t ht code with ⟨e, he, rfl, h1, -, -⟩ | ⟨h0, h1, -⟩
    · obtain ⟨i, hi0⟩ := List.mem_iff_getElem?.mp he
      obtain ⟨pre, hp⟩ := hext.entry i e hi0
      have := Vartable.query_entry_found hi'.sorted hp
      simp only at this
      rw [h1]
      unfold Vartable.query
      rw [this]; rfl
    · rw [h1]
      unfold Vartable.query
      rw [Vartable.query_entry_missing hi'.sorted]
      · rfl
      · rw [hext.codes]
        unfold Vartable.codes
        rw [List.mem_map]
        rintro ⟨e, he, hc⟩
        exact h0 e he hc

/-- C41: the identity returned with an answer is that of a metadata object with
these contents. -/
theorem C41_identity (E : Env) (t : Vartable) (ht : t.Reachable E) (q : Request)
    (hq : inInt q.bit_ref = true) (k : Nat) (v : Varinfo) (h : t.answer E q = .ok (k, v)) :
    (t.after E q).contentsOf q.code k = some v := by
  obtain ⟨hans, haft⟩ := C41_stable E t ht q hq k v h [] (by simp)
  simp only [List.foldl_nil] at hans haft
  have hr : (t.after E q).Reachable E := .request t q ht hq
  generalize t.after E q = u at hans haft hr
  have hi := hr.inv
  obtain ⟨x, hx, h1⟩ := u.query_entry_safe q.code
  unfold Vartable.answer Vartable.query_altered at hans
  unfold Vartable.after Vartable.query_altered at haft
  rw [hx] at hans haft
  cases x with
  | none => cases hans
  | some p =>
    obtain ⟨i, e⟩ := p
    obtain ⟨he, hc⟩ := h1 i e rfl
    have hf := Vartable.find_entry hi.sorted he
    rw [hc] at hf
    unfold Vartable.contentsOf
    rw [hf]
    simp only at hans haft
    simp only [Option.bind_some]
    cases hg : e.get_alteration q.scale q.bit_len q.bit_ref with
    | some r =>
      rw [hg] at hans
      simp only [Res.ok.injEq] at hans
      subst hans
      unfold VartableEntry.get_alteration at hg
      split at hg
      · simp only [Option.some.injEq, Prod.mk.injEq] at hg
        obtain ⟨rfl, rfl⟩ := hg
        rfl
      · obtain ⟨-, -, m, rfl, h4⟩ := findAlt_some hg
        exact h4
    | none =>
      exfalso
      rw [hg] at hans haft
      simp only at hans haft
      unfold Vartable.addAltered at hans haft
      split at hans
      · next w hw =>
        rw [hw] at haft
        simp only at haft
        have := congrArg Vartable.entries haft
        simp only at this
        have hj : u.entries[i]? = some { e with alterations := w :: e.alterations } := by
          rw [← this]
          have := (List.getElem?_eq_some_iff.mp he).1
          simp [this]
        rw [he] at hj
        simp only [Option.some.injEq] at hj
        have := congrArg (fun x => x.alterations.length) hj
        simp at this
      · cases hans
      · cases hans

theorem alter_bad {E : Env} {info : Varinfo} {s : Int} {l : Nat} {r : Int}
    (hn : info.type = .integer ∨ info.type = .decimal)
    (hbad : s < -16 ∨ 16 < s ∨ 32 < l ∨ l = 0) :
    (do Vartable.checkAlter info s l
        info.alter E s l r) = .err .consistency := by
  have h1 : Vartable.checkAlter info s l =
      if s < -16 ∨ 16 < s then .err .consistency
      else if 32 < l then .err .consistency else .ok () := by
    unfold Vartable.checkAlter
    rcases hn with h | h <;> rw [h]
  have h2 : alteredLen info.type l = digits_per_bits l := by
    unfold alteredLen
    rcases hn with h | h <;> rw [h]
  rw [h1]
  split
  · rfl
  · split
    · rfl
    · rw [Res.ok_bind]
      unfold Varinfo.alter
      rw [h2]
      unfold digits_per_bits
      rw [if_pos (by omega)]
      rfl

/-- C41: a request for an element that is not in the table, or for a number with a
scale beyond 16 or with 0 or more than 32 bits, raises an error and leaves the
table unchanged. -/
theorem C41_unsupported (E : Env) (t : Vartable) (ht : t.Reachable E) (q : Request) :
    ((∀ e ∈ t.entries, e.varinfo.code ≠ q.code) →
      t.answer E q = .err .notfound ∧ t.after E q = t) ∧
    (∀ e ∈ t.entries, e.varinfo.code = q.code →
      (e.varinfo.type = .integer ∨ e.varinfo.type = .decimal) →
      (q.scale < -16 ∨ 16 < q.scale ∨ 32 < q.bit_len ∨ q.bit_len = 0) →
      (e.varinfo.scale, e.varinfo.bit_len, e.varinfo.bit_ref) ≠ (q.scale, q.bit_len, q.bit_ref) →
      t.answer E q = .err .consistency ∧ t.after E q = t) := by
  have hi := ht.inv
  constructor
  · intro h
    have hq := Vartable.query_entry_missing hi.sorted (code := q.code) (by
      unfold Vartable.codes
      rw [List.mem_map]
      rintro ⟨e, he, hc⟩
      exact h e he hc)
    unfold Vartable.answer Vartable.after Vartable.query_altered
    rw [hq]
    exact ⟨rfl, rfl⟩
  · intro e he hc hn hbad hk
    obtain ⟨i, hi0⟩ := List.mem_iff_getElem?.mp he
    have hq := Vartable.query_entry_found hi.sorted hi0
    rw [hc] at hq
    have hei := hi.entries e he
    have hbad' : (do Vartable.checkAlter e.varinfo q.scale q.bit_len
                     e.varinfo.alter E q.scale q.bit_len q.bit_ref) = .err .consistency := by
      exact alter_bad hn hbad
    have hnone : findAlt q.scale q.bit_len q.bit_ref e.alterations = none := by
      cases hf : findAlt q.scale q.bit_len q.bit_ref e.alterations with
      | none => rfl
      | some x =>
        obtain ⟨n, v⟩ := x
        obtain ⟨h1, h2, -⟩ := findAlt_some hf
        obtain ⟨-, h3, h4⟩ := hei.alts v h1
        simp only [Varinfo.key, Prod.mk.injEq] at h2
        obtain ⟨h5, h6, h7⟩ := h2
        rw [← h5, ← h6, ← h7, h3, Res.ok_bind, h4] at hbad'
        cases hbad'
    unfold Vartable.answer Vartable.after Vartable.query_altered
    rw [hq]
    simp only
    unfold VartableEntry.get_alteration
    rw [if_neg (by rw [matchesAlt_iff]; exact hk), hnone]
    simp only
    unfold Vartable.addAltered
    rw [hbad']
    exact ⟨rfl, rfl⟩

theorem digits_per_bits_digits {n d : Nat} (h : digits_per_bits n = .ok d) :
    10 ^ (d - 1) ≤ 2 ^ n ∧ 2 ^ n < 10 ^ d := by
  by_cases h1 : 1 ≤ n ∧ n ≤ 32
  · obtain ⟨h1, h2⟩ := h1
    interval_cases n <;> (simp only [digits_per_bits] at h; norm_num at h; subst h; norm_num)
  · unfold digits_per_bits at h
    by_cases h0 : n = 0
    · rw [if_pos h0] at h; cases h
    · simp only [if_neg h0, if_neg (by omega : ¬ n ≤ 3), if_neg (by omega : ¬ n ≤ 6),
        if_neg (by omega : ¬ n ≤ 9), if_neg (by omega : ¬ n ≤ 13), if_neg (by omega : ¬ n ≤ 16),
        if_neg (by omega : ¬ n ≤ 19), if_neg (by omega : ¬ n ≤ 23), if_neg (by omega : ¬ n ≤ 26),
        if_neg (by omega : ¬ n ≤ 29), if_neg (by omega : ¬ n ≤ 32)] at h
      cases h

/-- C41: an answer is the entry itself, or metadata whose length in characters fits
the requested bits: as many digits as there are in that power of two, or as many
characters as there are whole octets. -/
theorem C41_width (E : Env) (t : Vartable) (ht : t.Reachable E) (q : Request) (k : Nat)
    (v : Varinfo) (h : t.answer E q = .ok (k, v)) :
    v ∈ t.entries.map (·.varinfo) ∨
    ((v.type = .integer ∨ v.type = .decimal) →
      10 ^ (v.len - 1) ≤ 2 ^ q.bit_len ∧ 2 ^ q.bit_len < 10 ^ v.len) ∧
    (v.type = .string → v.len = q.bit_len / 8) := by
  have hi := ht.inv
  obtain ⟨x, hx, h1⟩ := t.query_entry_safe q.code
  cases x with
  | none =>
    unfold Vartable.answer Vartable.query_altered at h
    rw [hx] at h
    cases h
  | some p =>
    obtain ⟨i, e⟩ := p
    obtain ⟨he, hc⟩ := h1 i e rfl
    have hres := Vartable.query_altered_result hi he q.scale q.bit_len q.bit_ref
    unfold Vartable.answer at h
    rw [hc, h, Res.ok_bind] at hres
    unfold Vartable.alteredOf at hres
    split at hres
    · simp only [Res.ok.injEq] at hres
      subst hres
      exact .inl (List.mem_map_of_mem (List.mem_of_getElem? he))
    · obtain ⟨u, -, ha⟩ := Res.bind_eq_ok.mp hres.symm
      obtain ⟨a1, a2, a3, a4, a5, a6, a7⟩ := alter_fields ha
      refine .inr ⟨fun hn => ?_, fun hs => ?_⟩
      · have : e.varinfo.type = .integer ∨ e.varinfo.type = .decimal := by
          rw [a6] at hn
          unfold alteredType at hn
          split at hn
          · next h => exact .inl h
          · next h => exact .inr h
          · exact hn
        refine digits_per_bits_digits ?_
        rw [← a7]
        rcases this with ht | ht <;> rw [ht] <;> rfl
      · have : e.varinfo.type = .string := by
          rw [a6] at hs
          unfold alteredType at hs
          split at hs
          · split at hs <;> cases hs
          · split at hs <;> cases hs
          · exact hs
        rw [this] at a7
        exact (Res.ok.injEq _ _ ▸ a7 : _).symm

theorem digits_per_bits_ok {n : Nat} (h1 : 1 ≤ n) (h2 : n ≤ 32) :
    ∃ d, digits_per_bits n = .ok d ∧ d ≤ 10 ∧ (10 ≤ d ↔ 30 ≤ n) := by
  interval_cases n <;> exact ⟨_, rfl, by decide, by decide⟩

theorem intRange_ok {E : Env} {info : Varinfo} (h1 : 1 ≤ info.bit_len) (h2 : info.bit_len ≤ 32)
    (hl : digits_per_bits info.bit_len = .ok info.len) (hr : inInt info.bit_ref = true)
    (ho : E.wrapv = true ∨ 30 ≤ info.bit_len ∨ 2 ^ info.bit_len + info.bit_ref ≤ 2147483647) :
    ∃ r, info.intRange E = .ok r := by
  obtain ⟨d, hd, hd10, hiff⟩ := digits_per_bits_ok h1 h2
  rw [hl] at hd
  simp only [Res.ok.injEq] at hd
  subst hd
  unfold Varinfo.intRange
  split
  · exact ⟨_, rfl⟩
  next hlen =>
  rw [if_neg (by omega)]
  have hbl : info.bit_len < 30 := by
    by_contra hc
    exact hlen (hiff.mpr (by omega))
  have hp : intexp10 info.len = .ok ((10 ^ info.len : Nat) : Int) := by
    unfold intexp10; rw [if_pos (by omega)]
  suffices ∃ m, info.bitMax E = .ok m by
    obtain ⟨m, hm⟩ := this
    rw [hm, Res.ok_bind, hp, Res.ok_bind]
    exact ⟨_, rfl⟩
  have sint_wrap : E.wrapv = true → ∀ a, ∃ b, E.sint a = .ok b := by
    intro hw a
    unfold Env.sint
    by_cases ha : inInt a = true
    · exact ⟨_, if_pos ha⟩
    · rw [if_neg ha]; exact ⟨_, if_pos hw⟩
  unfold Varinfo.bitMax shl1
  rw [if_pos (by omega), Res.ok_bind]
  rcases ho with hw | ho | ho
  · obtain ⟨b, hb⟩ := sint_wrap hw (((2 ^ info.bit_len : Nat) : Int) + info.bit_ref)
    rw [hb, Res.ok_bind]
    split
    · exact sint_wrap hw _
    · exact ⟨_, rfl⟩
  · omega
  · rw [inInt_iff] at hr
    have hpos : (2 : Int) ≤ 2 ^ info.bit_len := by
      calc (2 : Int) = 2 ^ 1 := rfl
        _ ≤ 2 ^ info.bit_len := pow_le_pow_right₀ (by norm_num) h1
    have hin : inInt (((2 ^ info.bit_len : Nat) : Int) + info.bit_ref) = true := by
      rw [inInt_iff]; push_cast; omega
    have hs : E.sint (((2 ^ info.bit_len : Nat) : Int) + info.bit_ref) =
        .ok (((2 ^ info.bit_len : Nat) : Int) + info.bit_ref) := by
      unfold Env.sint; rw [if_pos hin]
    rw [hs, Res.ok_bind]
    split
    · refine ⟨((2 ^ info.bit_len : Nat) : Int) + info.bit_ref - 2, ?_⟩
      unfold Env.sint
      rw [if_pos]
      rw [inInt_iff]; push_cast; omega
    · exact ⟨_, rfl⟩

/-- C41, supported requests succeed: for a number, any scale from -16 to 16, any
width from 1 to 32 bits and any reference such that the largest storable value
does not overflow an `int` (or overflow wraps); for character data, anything. -/
theorem C41_supported_partial (E : Env) (t : Vartable) (ht : t.Reachable E) (q : Request)
    (hq : inInt q.bit_ref = true) (e : VartableEntry) (he : e ∈ t.entries)
    (hc : e.varinfo.code = q.code)
    (hn : e.varinfo.type = .string ∨ (-16 ≤ q.scale ∧ q.scale ≤ 16 ∧ 1 ≤ q.bit_len ∧
      q.bit_len ≤ 32 ∧ (E.wrapv = true ∨ 30 ≤ q.bit_len ∨
        2 ^ q.bit_len + q.bit_ref ≤ 2147483647))) :
    ∃ k v, t.answer E q = .ok (k, v) := by
  have hi := ht.inv
  obtain ⟨i, hi0⟩ := List.mem_iff_getElem?.mp he
  have hres := Vartable.query_altered_result hi hi0 q.scale q.bit_len q.bit_ref
  rw [hc] at hres
  have hei := hi.entries e he
  suffices ∃ v, Vartable.alteredOf E e.varinfo q.scale q.bit_len q.bit_ref = .ok v by
    obtain ⟨v, hv⟩ := this
    rw [hv] at hres
    obtain ⟨x, hx, -⟩ := Res.bind_eq_ok.mp hres
    exact ⟨x.1, x.2, hx⟩
  unfold Vartable.alteredOf
  split
  · exact ⟨_, rfl⟩
  · rcases hn with hs | ⟨h1, h2, h3, h4, h5⟩
    · unfold Vartable.checkAlter Varinfo.alter alteredLen alteredType
      rw [hs]
      exact ⟨_, rfl⟩
    · cases hty : e.varinfo.type with
      | string =>
        unfold Vartable.checkAlter Varinfo.alter alteredLen alteredType
        rw [hty]
        exact ⟨_, rfl⟩
      | binary => exact absurd hty hei.notbin
      | integer | decimal =>
        all_goals
          obtain ⟨d, hd, -, -⟩ := digits_per_bits_ok h3 h4
          have hchk : Vartable.checkAlter e.varinfo q.scale q.bit_len = .ok () := by
            unfold Vartable.checkAlter
            rw [hty]
            simp only
            rw [if_neg (by omega), if_neg (by omega)]
          rw [hchk, Res.ok_bind]
          unfold Varinfo.alter alteredLen
          rw [hty]
          simp only
          rw [hd, Res.ok_bind]
          generalize hraw : ({ e.varinfo with
            bit_len := q.bit_len, len := d, scale := q.scale,
            type := alteredType _ q.scale, bit_ref := q.bit_ref } : Varinfo) = raw
          have hb : raw.bit_len = q.bit_len := by rw [← hraw]
          have hl : raw.len = d := by rw [← hraw]
          have hs : raw.scale = q.scale := by rw [← hraw]
          have hr : raw.bit_ref = q.bit_ref := by rw [← hraw]
          have hnum : raw.type = .integer ∨ raw.type = .decimal := by
            rw [← hraw]
            simp only [alteredType]
            split <;> simp
          obtain ⟨r, hrr⟩ := intRange_ok (E := E) (info := raw) (by omega) (by omega)
            (by rw [hb, hl]; exact hd) (by rw [hr]; exact hq) (by rw [hb, hr]; exact h5)
          have hcr : raw.compute_range E = (do
              let r ← raw.intRange E
              let dmin ← raw.decode_decimal E r.1
              let dmax ← raw.decode_decimal E r.2
              return { raw with imin := r.1, imax := r.2, dmin := dmin, dmax := dmax }) := by
            unfold Varinfo.compute_range
            rcases hnum with hnum | hnum <;> rw [hnum]
          rw [hcr, hrr, Res.ok_bind, decode_decimal_eq E raw r.1 (by omega), Res.ok_bind,
            decode_decimal_eq E raw r.2 (by omega), Res.ok_bind]
          exact ⟨_, rfl⟩

/-- C41 does not hold for all requests: with a large reference value the range
computation overflows, instead of an error or a result. -/
theorem C41_not_supported :
    sampleTable.answer Env0 ⟨WR_VAR 0 12 101, 2, 16, 2147483647⟩ = .ub := by decide +kernel

/-- Requests that are answered, the second creating an alteration. -/
example : sampleTable.answer Env0 ⟨WR_VAR 0 12 101, 2, 16, 0⟩ = .ok (0, sampleTemp) ∧
    sampleTable.answer Env0 ⟨WR_VAR 0 12 101, 3, 20, -5⟩ =
      .ok (1, made (Varinfo.raw (WR_VAR 0 12 101) .decimal (ascii "K") 3 7 (-5) 20)) := by
  decide +kernel

example : sampleTable.answer Env0 ⟨WR_VAR 0 12 101, 17, 20, -5⟩ = .err .consistency ∧
    sampleTable.answer Env0 ⟨WR_VAR 0 12 101, 1, 33, -5⟩ = .err .consistency ∧
    sampleTable.answer Env0 ⟨WR_VAR 0 12 102, 1, 12, -5⟩ = .err .notfound := by
  decide +kernel

/-! ## C42 -/

/-- C42: for a file that loads and lists its sequences in increasing order, looking
up a sequence gives the members listed for it, and looking up anything else gives
the not-found error. -/
theorem C42_lookup_partial (data : List Byte) (t : DTable) (h : DTable.load data = .ok t) :
    ∃ tbl, Lists (fgetsLines data) tbl ∧ (Increasing (tbl.map (·.1)) →
      (∀ code members, (code, members) ∈ tbl → t.query code = .ok members) ∧
      (∀ code, code ∉ tbl.map (·.1) → t.query code = .err .notfound)) := by
  obtain ⟨tbl, h1, h2, h3, h4⟩ := DTable.load_lists h
  refine ⟨tbl, h1, fun hs => ⟨fun code members hm => ?_, fun code hn => ?_⟩⟩
  · obtain ⟨i, hi⟩ := List.mem_iff_getElem?.mp hm
    have hc : (t.entries.map (·.code))[i]? = some code := by
      rw [h3, List.getElem?_map, hi]; rfl
    unfold DTable.query
    rw [(searchCode_spec _ code (by rw [h3]; exact hs)).1 i hc, Res.ok_bind]
    rw [List.getElem?_map] at hc
    cases he : t.entries[i]? with
    | none => rw [he] at hc; cases hc
    | some e =>
      simp only [he, Res.pure_def, Res.ok.injEq]
      exact h4 i e he _ hi
  · unfold DTable.query
    rw [(searchCode_spec _ code (by rw [h3]; exact hs)).2 (by rw [h3]; exact hn), Res.ok_bind]

/-- C42: whatever the order, a lookup never reads outside the table and returns
the members listed for that code, if it returns at all. -/
theorem C42_sound (data : List Byte) (t : DTable) (h : DTable.load data = .ok t) (code : Varcode) :
    ∃ tbl, Lists (fgetsLines data) tbl ∧
      ((∃ members, (code, members) ∈ tbl ∧ t.query code = .ok members) ∨
        t.query code = .err .notfound) := by
  obtain ⟨tbl, h1, h2, h3, h4⟩ := DTable.load_lists h
  refine ⟨tbl, h1, ?_⟩
  unfold DTable.query
  obtain ⟨r, hr, hi⟩ := searchCode_safe (t.entries.map (·.code)) code
  rw [hr, Res.ok_bind]
  cases r with
  | none => exact Or.inr rfl
  | some i =>
    left
    have hc := hi i rfl
    have hc' := hc
    rw [List.getElem?_map] at hc
    rw [h3, List.getElem?_map] at hc'
    cases he : t.entries[i]? with
    | none => rw [he] at hc; cases hc
    | some e =>
      cases hp : tbl[i]? with
      | none => rw [hp] at hc'; cases hc'
      | some p =>
        rw [hp] at hc'
        simp only [Option.map_some, Option.some.injEq] at hc'
        refine ⟨p.2, ?_, ?_⟩
        · rw [← hc']; exact List.mem_of_getElem? hp
        · simp only [he, Res.pure_def, Res.ok.injEq]
          exact h4 i e he p hp

/-- C42: what a file lists is determined by its lines. -/
theorem C42_lists_unique (lines : List (List Byte)) (a b : List (Varcode × List Varcode))
    (ha : Lists lines a) (hb : Lists lines b) : a = b := by
  induction ha generalizing b with
  | nil => cases hb; rfl
  | seq start code first more members rest tbl hs hm _ ih =>
    generalize hl : start :: (more ++ rest) = l at hb
    cases hb with
    | nil => cases hl
    | seq start' code' first' more' members' rest' tbl' hs' hm' hr' =>
      simp only [List.cons.injEq] at hl
      obtain ⟨rfl, hl⟩ := hl
      obtain ⟨-, -, c1, c2, c3⟩ := hs
      obtain ⟨-, -, d1, d2, d3⟩ := hs'
      rw [c1] at d1; rw [c3] at d3
      simp only [Res.ok.injEq] at d1 d3
      subst d1 d3
      have hlen : members.length = members'.length := by omega
      have h1 := hm.length_eq
      have h2 := hm'.length_eq
      obtain ⟨rfl, rfl⟩ := List.append_inj hl (by omega)
      have hmm : members = members' := by
        clear hl ih hr' c1 c2 c3 d2 hlen h1 h2
        induction hm generalizing members' with
        | nil => cases hm'; rfl
        | cons h _ ih =>
          cases hm' with
          | cons h' hm' =>
            have e1 := h.2.2
            rw [h'.2.2] at e1
            simp only [Res.ok.injEq] at e1
            rw [e1, ih _ hm']
      rw [hmm, ih _ hr']

/-- Two sequences in the format of `/repo/tables`. -/
def sampleDText : List Byte := utf8 (
  " 301001  2 001001 WMO block number\n           001002 WMO station number\n" ++
  " 301011  3 004001\n           004002\n           004003\n")

example : ∃ t, DTable.load sampleDText = .ok t ∧
    t.query (WR_VAR 3 1 1) = .ok [WR_VAR 0 1 1, WR_VAR 0 1 2] ∧
    t.query (WR_VAR 3 1 11) = .ok [WR_VAR 0 4 1, WR_VAR 0 4 2, WR_VAR 0 4 3] ∧
    t.query (WR_VAR 3 1 2) = .err .notfound :=
  ⟨⟨[WR_VAR 0 1 1, WR_VAR 0 1 2, WR_VAR 0 4 1, WR_VAR 0 4 2, WR_VAR 0 4 3],
    [⟨WR_VAR 3 1 1, 0, 2⟩, ⟨WR_VAR 3 1 11, 2, 5⟩]⟩, by decide +kernel⟩

/-- The order of `D0000000000000012000.txt`, line 1500 and before: 307059 comes
before 307052. -/
def sampleDUnsorted : List Byte := utf8 (
  " 307059  1 001001\n 307052  1 001002\n 307056  1 001063\n")

/-- C42 does not hold without the order of the sequences, which loading does not
check and files of the library do not have: a listed sequence is not found. -/
theorem C42_not_unsorted :
    (do let t ← DTable.load sampleDUnsorted; t.query (WR_VAR 3 7 59)) = .err .notfound ∧
    Lists (fgetsLines sampleDUnsorted) [(WR_VAR 3 7 59, [WR_VAR 0 1 1]),
      (WR_VAR 3 7 52, [WR_VAR 0 1 2]), (WR_VAR 3 7 56, [WR_VAR 0 1 63])] := by
  refine ⟨by decide +kernel, ?_⟩
  have : fgetsLines sampleDUnsorted = [ascii " 307059  1 001001\n", ascii " 307052  1 001002\n",
    ascii " 307056  1 001063\n"] := by decide +kernel
  rw [this]
  have s1 : StartsSequence (ascii " 307059  1 001001\n") (WR_VAR 3 7 59) 1 (WR_VAR 0 1 1) := by
    unfold StartsSequence; decide +kernel
  have s2 : StartsSequence (ascii " 307052  1 001002\n") (WR_VAR 3 7 52) 1 (WR_VAR 0 1 2) := by
    unfold StartsSequence; decide +kernel
  have s3 : StartsSequence (ascii " 307056  1 001063\n") (WR_VAR 3 7 56) 1 (WR_VAR 0 1 63) := by
    unfold StartsSequence; decide +kernel
  exact .seq _ _ _ [] [] _ _ s1 .nil (.seq _ _ _ [] [] _ _ s2 .nil (.seq _ _ _ [] [] _ _ s3 .nil .nil))

/-! ## C59 -/

/-- C59: the view of a vector holds its descriptors. -/
theorem C59_whole (v : List Varcode) :
    (Opcodes.ofVector v).WF ∧ (Opcodes.ofVector v).items = v := by
  simp [Opcodes.WF, Opcodes.ofVector, Opcodes.items]

/-- C59: taking the first descriptor splits the view; an empty view is rejected. -/
theorem C59_pop_left (o : Opcodes) (h : o.WF) :
    (o.items = [] ∧ o.pop_left = .err .consistency) ∨
    ∃ c o', o.pop_left = .ok (c, o') ∧ o'.WF ∧ o.items = c :: o'.items := by
  obtain ⟨h1, h2⟩ := h
  by_cases hb : o.b = o.e
  · left
    refine ⟨by simp [Opcodes.items, hb], ?_⟩
    unfold Opcodes.pop_left Opcodes.empty
    simp [hb]
  · right
    have hlt : o.b < o.data.length := by omega
    refine ⟨o.data[o.b], { o with b := o.b + 1 }, ?_, ⟨by simp only; omega, h2⟩, ?_⟩
    · unfold Opcodes.pop_left Opcodes.empty Opcodes.deref
      simp [hb, hlt]
    · unfold Opcodes.items
      simp only
      rw [List.drop_eq_getElem_cons hlt, show o.e - o.b = (o.e - (o.b + 1)) + 1 by omega,
        List.take_succ_cons]

/-- C59: taking several descriptors splits the view; asking for more than there
are is rejected. -/
theorem C59_pop_leftN (o : Opcodes) (h : o.WF) (n : Nat) :
    (o.items.length < n ∧ o.pop_leftN n = .err .consistency) ∨
    ∃ a r, o.pop_leftN n = .ok (a, r) ∧ a.WF ∧ r.WF ∧ a.items.length = n ∧
      o.items = a.items ++ r.items := by
  have hl := Opcodes.items_length h
  obtain ⟨h1, h2⟩ := h
  unfold Opcodes.pop_leftN
  by_cases hb : o.size < n
  · left
    rw [if_pos hb]
    exact ⟨by omega, rfl⟩
  · right
    rw [if_neg hb]
    unfold Opcodes.size at hb
    have e1 : ({ o with e := o.b + n } : Opcodes).items = o.items.take n := by
      have := Opcodes.items_range (o := o) (b := o.b) (e := o.b + n) le_rfl (by omega)
      simpa using this
    have e2 : ({ o with b := o.b + n } : Opcodes).items = o.items.drop n := by
      have := Opcodes.items_range (o := o) (b := o.b + n) (e := o.e) (by omega) le_rfl
      rw [this, show o.b + n - o.b = n by omega]
      apply List.take_of_length_le
      rw [List.length_drop, hl]
      unfold Opcodes.size; omega
    refine ⟨_, _, rfl, ⟨by simp only; omega, by simp only; omega⟩, ⟨by simp only; omega, h2⟩, ?_, ?_⟩
    · rw [e1, List.length_take, hl]
      unfold Opcodes.size; omega
    · rw [e1, e2, List.take_append_drop]

/-- C59: head and rest make up the view; of an empty view they are 0 and empty. -/
theorem C59_head_next (o : Opcodes) (h : o.WF) :
    (o.items = [] ∧ o.head = .ok 0 ∧ o.next.items = []) ∨
    ∃ c, o.head = .ok c ∧ o.next.WF ∧ o.items = c :: o.next.items := by
  rcases C59_pop_left o h with ⟨h1, h2⟩ | ⟨c, o', h1, h2, h3⟩
  · left
    have hb : o.b = o.e := by
      by_contra hb
      have := Opcodes.items_length h
      rw [h1] at this
      unfold Opcodes.size at this
      have := h.1
      simp at *
      omega
    exact ⟨h1, by simp [Opcodes.head, hb], by simp [Opcodes.next, hb, Opcodes.items]⟩
  · right
    have hb : o.b ≠ o.e := by
      intro hb
      simp [Opcodes.items, hb] at h3
    unfold Opcodes.pop_left Opcodes.empty at h1
    rw [if_neg (by simpa using hb)] at h1
    obtain ⟨d, hd, h1⟩ := Res.bind_eq_ok.mp h1
    simp only [Res.pure_def, Res.ok.injEq, Prod.mk.injEq] at h1
    obtain ⟨rfl, rfl⟩ := h1
    refine ⟨d, by simp [Opcodes.head, hb, hd], ?_, ?_⟩ <;> simp only [Opcodes.next, if_neg hb]
    · exact h2
    · exact h3

/-- C59: sub-views hold the descriptors at their positions, as long as the
positions asked for are inside the array the view points into. -/
theorem C59_sub_partial (o : Opcodes) (h : o.WF) (skip len : Nat)
    (hin : o.b + skip + len ≤ o.data.length) :
    (∃ s, o.sub skip = .ok s ∧ s.WF ∧ s.items = o.items.drop skip) ∧
    (∃ s, o.subN skip len = .ok s ∧ s.WF ∧ s.items = (o.items.drop skip).take len) := by
  have hl := Opcodes.items_length h
  obtain ⟨h1, h2⟩ := h
  unfold Opcodes.size at hl
  unfold Opcodes.sub Opcodes.subN Opcodes.offset
  rw [if_pos (by omega), Res.ok_bind, Res.ok_bind]
  by_cases hb : o.e < o.b + skip
  · rw [if_pos hb, if_pos hb]
    have hdrop : o.items.drop skip = [] := List.drop_eq_nil_of_le (by omega)
    have hnil : ({ o with b := o.e } : Opcodes).items = [] := by simp [Opcodes.items]
    rw [hdrop]
    exact ⟨⟨_, rfl, ⟨le_rfl, h2⟩, hnil⟩, ⟨_, rfl, ⟨le_rfl, h2⟩, by simp [hnil]⟩⟩
  · rw [if_neg hb, if_neg hb, if_pos hin, Res.ok_bind]
    have e2 : ({ o with b := o.b + skip } : Opcodes).items = o.items.drop skip := by
      have := Opcodes.items_range (o := o) (b := o.b + skip) (e := o.e) (by omega) le_rfl
      rw [this, show o.b + skip - o.b = skip by omega]
      apply List.take_of_length_le
      rw [List.length_drop, hl]; omega
    refine ⟨⟨_, rfl, ⟨by simp only; omega, h2⟩, e2⟩, ?_⟩
    by_cases hc : o.e ≤ o.b + skip + len
    · rw [if_pos hc]
      refine ⟨_, rfl, ⟨by simp only; omega, h2⟩, ?_⟩
      rw [e2, List.take_of_length_le]
      rw [List.length_drop, hl]; omega
    · rw [if_neg hc]
      refine ⟨_, rfl, ⟨by simp only; omega, by simp only; omega⟩, ?_⟩
      rw [Opcodes.items_range (by omega) (by omega), show o.b + skip - o.b = skip by omega,
        show o.b + skip + len - (o.b + skip) = len by omega]

/-- C59: access by index gives the descriptor at that position; positions more
than one past the end, but inside the array, give 0. -/
theorem C59_index_partial (o : Opcodes) (h : o.WF) (i : Nat) :
    (∀ c, o.items[i]? = some c → o.get i = .ok c) ∧
    (o.items.length < i → o.b + i ≤ o.data.length → o.get i = .ok 0) := by
  have hl := Opcodes.items_length h
  have hg := @Opcodes.getElem_items o h i
  obtain ⟨h1, h2⟩ := h
  unfold Opcodes.size at hl hg
  unfold Opcodes.get Opcodes.offset
  constructor
  · intro c hc
    have hi := (List.getElem?_eq_some_iff.mp hc).1
    rw [if_pos (by omega), Res.ok_bind, if_neg (by omega)]
    rw [hg (by omega)] at hc
    simp [Opcodes.deref, hc]
  · intro hi hin
    rw [if_pos hin, Res.ok_bind, if_pos (by omega)]
    rfl

/-- C59 does not hold for access one past the end: it reads the next descriptor of
the array the view points into, or outside the array. -/
theorem C59_not_rejected :
    Opcodes.get ⟨[257, 258, 259], 0, 2⟩ 2 = .ok 259 ∧ (Opcodes.ofVector [257, 258]).get 2 = .ub := by
  decide +kernel

example : (⟨[257, 258, 259, 260], 1, 3⟩ : Opcodes).WF ∧
    (⟨[257, 258, 259, 260], 1, 3⟩ : Opcodes).items = [258, 259] := by
  refine ⟨⟨by decide, by decide⟩, by decide⟩

/-! ## C60 -/

theorem lookupOrAdd_ok {κ : Type} [DecidableEq κ] {m : List (κ × Varinfo)} {k : κ} {code : Varcode}
    {mk : Res Varinfo} {v : Varinfo} (h : (TableCaches.lookupOrAdd m k code mk).2 = .ok v) :
    ((k, v) ∈ m ∧ v.code = code) ∨ mk = .ok v := by
  unfold TableCaches.lookupOrAdd at h
  split at h
  · next i hi =>
    split at h
    · cases h
    · next hc =>
      simp only [Res.ok.injEq] at h
      subst h
      left
      refine ⟨?_, by simpa using hc⟩
      clear hc
      induction m with
      | nil => cases hi
      | cons a m ih =>
        obtain ⟨a1, a2⟩ := a
        rw [List.lookup_cons] at hi
        split at hi
        · next hk =>
          simp only [Option.some.injEq] at hi
          simp only [beq_iff_eq] at hk
          subst hi hk
          exact List.mem_cons_self
        · exact List.mem_cons_of_mem _ (ih hi)
  · right
    split at h
    · simpa using h
    · cases h
    · cases h

theorem lookupOrAdd_mem {κ : Type} [DecidableEq κ] {m : List (κ × Varinfo)} {k : κ}
    {code : Varcode} {mk : Res Varinfo} {p : κ × Varinfo}
    (h : p ∈ (TableCaches.lookupOrAdd m k code mk).1) : p ∈ m ∨ (p.1 = k ∧ mk = .ok p.2) := by
  unfold TableCaches.lookupOrAdd at h
  split at h
  · split at h <;> exact Or.inl h
  · split at h
    · rcases List.mem_cons.mp h with rfl | h
      · exact Or.inr ⟨rfl, rfl⟩
      · exact Or.inl h
    · exact Or.inl h
    · exact Or.inl h

/-- A request for a made up descriptor. -/
inductive CacheRequest where
  | bitmap (code : Varcode) (bitmap : List Byte)
  | chardata (code : Varcode) (len : Nat)
  | unknown (code : Varcode) (bit_len : Nat)

/-- Issue the request. -/
def TableCaches.request (E : Env) (c : TableCaches) : CacheRequest → TableCaches × Res Varinfo
  | .bitmap code b => c.get_bitmap E code b
  | .chardata code len => c.get_chardata E code len
  | .unknown code l => c.get_unknown E code l

/-- Issue requests one after the other. -/
def TableCaches.requests (E : Env) (c : TableCaches) (rs : List CacheRequest) : TableCaches :=
  rs.foldl (fun c r => (c.request E r).1) c

theorem set_string_fields {E : Env} {code : Varcode} {len : Nat} {v : Varinfo}
    (h : Varinfo.set_string E code len = .ok v) :
    v.code = code ∧ v.type = .string ∧ v.len = len ∧ v.bit_len = len * 8 := by
  obtain ⟨a, b, c, d, e, f, g⟩ := compute_range_fields h
  exact ⟨a, b, e, g⟩

theorem set_binary_fields {E : Env} {code : Varcode} {l : Nat} {v : Varinfo}
    (h : Varinfo.set_binary E code l = .ok v) :
    v.code = code ∧ v.type = .binary ∧ v.bit_len = l ∧ v.len = (l + 7) / 8 := by
  obtain ⟨a, b, c, d, e, f, g⟩ := compute_range_fields h
  exact ⟨a, b, g, e⟩

/-- What the caches hold at any time after the requests `rs`. -/
structure TableCaches.Inv (c : TableCaches) (rs : List CacheRequest) : Prop where
  bitmap : ∀ p ∈ c.bitmap_table, p.2.type = .string ∧ p.2.len = p.1.length ∧
    p.2.bit_len = p.1.length * 8
  chardata : ∀ p ∈ c.chardata_table, p.2.type = .string ∧ p.2.code = p.1 ∧
    CacheRequest.chardata p.1 p.2.len ∈ rs
  unknown : ∀ p ∈ c.unknown_table, p.2.type = .binary ∧ p.2.bit_len = p.1 ∧
    p.2.len = (p.1 + 7) / 8

theorem TableCaches.request_inv {E : Env} {c : TableCaches} {rs : List CacheRequest}
    (h : c.Inv rs) (r : CacheRequest) : (c.request E r).1.Inv (rs ++ [r]) := by
  have hch : ∀ p ∈ c.chardata_table, p.2.type = .string ∧ p.2.code = p.1 ∧
      CacheRequest.chardata p.1 p.2.len ∈ rs ++ [r] := fun p hp =>
    ⟨(h.chardata p hp).1, (h.chardata p hp).2.1, List.mem_append_left _ (h.chardata p hp).2.2⟩
  cases r with
  | bitmap code b =>
    refine ⟨fun p hp => ?_, hch, h.unknown⟩
    rcases lookupOrAdd_mem hp with hp | ⟨h1, h2⟩
    · exact h.bitmap p hp
    · obtain ⟨a, b, c, d⟩ := set_string_fields h2
      rw [h1]
      exact ⟨b, c, d⟩
  | chardata code len =>
    refine ⟨h.bitmap, fun p hp => ?_, h.unknown⟩
    rcases lookupOrAdd_mem hp with hp | ⟨h1, h2⟩
    · exact hch p hp
    · obtain ⟨a, b, c, d⟩ := set_string_fields h2
      exact ⟨b, a.trans h1.symm, by rw [c, h1]; simp⟩
  | unknown code l =>
    refine ⟨h.bitmap, hch, fun p hp => ?_⟩
    rcases lookupOrAdd_mem hp with hp | ⟨h1, h2⟩
    · exact h.unknown p hp
    · obtain ⟨a, b, c, d⟩ := set_binary_fields h2
      rw [h1]
      exact ⟨b, c, d⟩

theorem TableCaches.requests_inv (E : Env) (rs : List CacheRequest) :
    (TableCaches.requests E ⟨[], [], []⟩ rs).Inv rs := by
  induction rs using List.reverseRecOn with
  | nil => exact ⟨by simp [requests], by simp [requests], by simp [requests]⟩
  | append_singleton rs r ih =>
    unfold requests at ih ⊢
    rw [List.foldl_append]
    exact TableCaches.request_inv ih r

/-- C60: after any requests, a descriptor made up for a bitmap or for unknown
binary data has the code and the length asked for; a descriptor made up for
character data has the code asked for, and a length that was asked for with that
code. -/
theorem C60_made_up_partial (E : Env) (rs : List CacheRequest) (v : Varinfo) :
    let c := TableCaches.requests E ⟨[], [], []⟩ rs
    (∀ code b, (c.request E (.bitmap code b)).2 = .ok v →
      v.code = code ∧ v.type = .string ∧ v.len = b.length ∧ v.bit_len = b.length * 8) ∧
    (∀ code l, (c.request E (.unknown code l)).2 = .ok v →
      v.code = code ∧ v.type = .binary ∧ v.bit_len = l ∧ v.len = (l + 7) / 8) ∧
    (∀ code len, (c.request E (.chardata code len)).2 = .ok v →
      v.code = code ∧ v.type = .string ∧
        (CacheRequest.chardata code v.len ∈ rs ∨ v.len = len)) := by
  intro c
  have hc : c.Inv rs := TableCaches.requests_inv E rs
  refine ⟨fun code b h => ?_, fun code l h => ?_, fun code len h => ?_⟩
  · rcases lookupOrAdd_ok h with ⟨h1, h2⟩ | h1
    · obtain ⟨a, b, c⟩ := hc.bitmap _ h1
      exact ⟨h2, a, b, c⟩
    · exact set_string_fields h1
  · rcases lookupOrAdd_ok h with ⟨h1, h2⟩ | h1
    · obtain ⟨a, b, c⟩ := hc.unknown _ h1
      exact ⟨h2, a, b, c⟩
    · exact set_binary_fields h1
  · rcases lookupOrAdd_ok h with ⟨h1, h2⟩ | h1
    · obtain ⟨a, b, c⟩ := hc.chardata _ h1
      exact ⟨h2, a, Or.inl c⟩
    · obtain ⟨a, b, c, d⟩ := set_string_fields h1
      exact ⟨a, b, Or.inr c⟩

/-- C60 applies: requests that are answered. -/
example : (do
      let v ← ((TableCaches.requests Env0 ⟨[], [], []⟩ [.chardata (WR_VAR 2 5 3) 3]).request Env0
        (.bitmap (WR_VAR 2 22 0) (ascii "+-+"))).2
      Res.ok (v.code, v.len)) = .ok (WR_VAR 2 22 0, 3) ∧
    (do
      let v ← ((TableCaches.requests Env0 ⟨[], [], []⟩ []).request Env0 (.unknown (WR_VAR 0 63 9) 11)).2
      Res.ok (v.bit_len, v.len)) = .ok (11, 2) := by
  decide +kernel

/-- C60 does not hold in full. Unknown binary data of the same width under two
codes is refused; the same bitmap under two codes is refused; character data under
the same code always has the first length. -/
theorem C60_not_made_up :
    ((TableCaches.requests Env0 ⟨[], [], []⟩ [.unknown (WR_VAR 0 1 200) 8]).request Env0
      (.unknown (WR_VAR 0 1 201) 8)).2 = .err .consistency ∧
    ((TableCaches.requests Env0 ⟨[], [], []⟩ [.bitmap (WR_VAR 2 22 0) (ascii "+-")]).request Env0
      (.bitmap (WR_VAR 2 23 0) (ascii "+-"))).2 = .err .consistency ∧
    (do let v ← ((TableCaches.requests Env0 ⟨[], [], []⟩ [.chardata (WR_VAR 2 5 3) 3]).request Env0
          (.chardata (WR_VAR 2 5 3) 5)).2
        Res.ok v.len) = .ok 3 := by
  decide +kernel

end Wreport
