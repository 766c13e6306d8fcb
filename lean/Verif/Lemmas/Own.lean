import Verif.Spec.Own
import Verif.Props.UndefCompressed
import Verif.Lemmas.NumSetter
import Mathlib.Data.List.Perm.Basic

/-!
# Ownership of heap objects

A variable with pointers represents a variable of `Verif.Model.Var`, and owns the
addresses listed. An operation replaces a list of owned addresses by another one and
leaves all the other addresses alone (`Upd`).
-/

namespace Wreport.Own

/-- Addresses in use are below `next`. -/
def Heap.Ok (h : Heap) : Prop := ∀ a, h.at? a ≠ none → a < h.next

theorem CellRep.congr {h h' : Heap} {info : Varinfo} {x : HCell} {y : Cell} {fp : List Nat}
    (hr : CellRep h info x y fp) (he : ∀ a ∈ fp, h'.at? a = h.at? a) : CellRep h' info x y fp := by
  cases hr with
  | word ht i => exact .word ht i
  | null ht => exact .null ht
  | buf ht ha => exact .buf ht (by rw [he _ (by simp)]; exact ha)

theorem CellRep.live {h : Heap} {info : Varinfo} {x : HCell} {y : Cell} {fp : List Nat}
    (hr : CellRep h info x y fp) : ∀ a ∈ fp, h.at? a ≠ none := by
  cases hr with
  | word ht i => intro a ha; cases ha
  | null ht => intro a ha; cases ha
  | buf ht ha =>
    intro b hb
    rw [List.mem_singleton.mp hb, ha]
    exact fun x => by cases x

theorem CoreRep.congr {h h' : Heap} {v : HVar} {c : VarCore} {fp : List Nat}
    (hr : CoreRep h v c fp) (he : ∀ a ∈ fp, h'.at? a = h.at? a) : CoreRep h' v c fp :=
  ⟨hr.info, hr.isset, hr.cell.congr he⟩

theorem ChainRep.congr {h h' : Heap} {x : Option Nat} {l : List VarCore} {fp : List Nat}
    (hr : ChainRep h x l fp) (he : ∀ a ∈ fp, h'.at? a = h.at? a) : ChainRep h' x l fp := by
  induction hr with
  | nil => exact .nil
  | cons ha hc hl ih =>
    exact .cons (by rw [he _ (by simp)]; exact ha) (hc.congr fun b hb => he b (by simp [hb]))
      (ih fun b hb => he b (by simp [hb]))

theorem ChainRep.live {h : Heap} {x : Option Nat} {l : List VarCore} {fp : List Nat}
    (hr : ChainRep h x l fp) : ∀ a ∈ fp, h.at? a ≠ none := by
  induction hr with
  | nil => intro a ha; cases ha
  | @cons a n c l p q ha hc hl ih =>
    intro b hb
    rcases List.mem_cons.mp hb with rfl | hb
    · rw [ha]
      exact fun x => by cases x
    · rcases List.mem_append.mp hb with hb | hb
      · exact hc.cell.live b hb
      · exact ih b hb

/-- What an operation does to the heap: it had the addresses `p` and leaves `q`. -/
structure Upd (h h' : Heap) (p q : List Nat) : Prop where
  ok : h'.Ok
  next : h.next ≤ h'.next
  frame : ∀ a, a ∉ p → a ∉ q → h'.at? a = h.at? a
  fresh : ∀ a ∈ q, a ∉ p → h.next ≤ a
  gone : ∀ a ∈ p, a ∉ q → h'.at? a = none
  bound : ∀ a ∈ q, a < h'.next
  nodup : q.Nodup

theorem Upd.refl {h : Heap} (hok : h.Ok) {p : List Nat} (hn : p.Nodup)
    (hl : ∀ a ∈ p, h.at? a ≠ none) : Upd h h p p :=
  ⟨hok, le_rfl, fun _ _ _ => rfl, fun _ h1 h2 => absurd h1 h2, fun _ h1 h2 => absurd h1 h2,
    fun a ha => hok a (hl a ha), hn⟩

/-- Addresses that an operation does not own stay as they are. -/
theorem Upd.keep {h h' : Heap} {p q s : List Nat} (u : Upd h h' p q) (hok : h.Ok)
    (hd : ∀ a ∈ s, a ∉ p) (hl : ∀ a ∈ s, h.at? a ≠ none) : ∀ a ∈ s, h'.at? a = h.at? a := by
  intro a ha
  refine u.frame a (hd a ha) fun hq => ?_
  have := u.fresh a hq (hd a ha)
  have := hok a (hl a ha)
  omega

/-- An operation after another one, on part of what that one left. -/
theorem Upd.andThen {h h1 h2 : Heap} {p q r s t : List Nat} (u : Upd h h1 p q) (hok : h.Ok)
    (w : Upd h1 h2 r t) (hq : q.Perm (r ++ s)) : Upd h h2 p (t ++ s) := by
  have hmem : ∀ a, a ∈ q ↔ a ∈ r ∨ a ∈ s := fun a => by rw [hq.mem_iff, List.mem_append]
  have hnd : (r ++ s).Nodup := hq.nodup_iff.mp u.nodup
  obtain ⟨hr, hs, hrs⟩ := List.nodup_append.mp hnd
  refine ⟨w.ok, u.next.trans w.next, ?_, ?_, ?_, ?_, ?_⟩
  · intro a ha hb
    have ht : a ∉ t := fun x => hb (by simp [x])
    have hs' : a ∉ s := fun x => hb (by simp [x])
    by_cases hr' : a ∈ r
    · rw [w.gone a hr' ht]
      have h1 := u.fresh a ((hmem a).mpr (.inl hr')) ha
      by_contra hc
      have := hok a (fun x => hc x.symm)
      omega
    · rw [w.frame a hr' ht, u.frame a ha fun x => ((hmem a).mp x).elim hr' hs']
  · intro a ha hb
    rcases List.mem_append.mp ha with ha | ha
    · by_cases hr' : a ∈ r
      · exact u.fresh a ((hmem a).mpr (.inl hr')) hb
      · exact u.next.trans (w.fresh a ha hr')
    · exact u.fresh a ((hmem a).mpr (.inr ha)) hb
  · intro a ha hb
    have ht : a ∉ t := fun x => hb (by simp [x])
    have hs' : a ∉ s := fun x => hb (by simp [x])
    by_cases hr' : a ∈ r
    · exact w.gone a hr' ht
    · rw [w.frame a hr' ht]
      exact u.gone a ha fun x => ((hmem a).mp x).elim hr' hs'
  · intro a ha
    rcases List.mem_append.mp ha with ha | ha
    · exact w.bound a ha
    · exact lt_of_lt_of_le (u.bound a ((hmem a).mpr (.inr ha))) w.next
  · refine List.nodup_append.mpr ⟨w.nodup, hs, ?_⟩
    rintro a ha b hb rfl
    by_cases hr' : a ∈ r
    · exact hrs a hr' a hb rfl
    · have h1 := w.fresh a ha hr'
      have h2 := u.bound a ((hmem a).mpr (.inr hb))
      omega

theorem Upd.perm {h h' : Heap} {p p' q q' : List Nat} (u : Upd h h' p q) (hp : p.Perm p')
    (hq : q.Perm q') : Upd h h' p' q' where
  ok := u.ok
  next := u.next
  frame a h1 h2 := u.frame a (fun x => h1 (hp.mem_iff.mp x)) (fun x => h2 (hq.mem_iff.mp x))
  fresh a h1 h2 := u.fresh a (hq.mem_iff.mpr h1) (fun x => h2 (hp.mem_iff.mp x))
  gone a h1 h2 := u.gone a (hp.mem_iff.mpr h1) (fun x => h2 (hq.mem_iff.mp x))
  bound a h1 := u.bound a (hq.mem_iff.mpr h1)
  nodup := hq.nodup_iff.mp u.nodup

/-- Permutations of lists put together from parts. -/
macro "perms" : tactic => `(tactic| (
  refine List.perm_iff_count.mpr fun x => ?_
  simp only [List.count_append, List.count_cons, List.count_nil]
  omega))

/-! ## Single steps -/

theorem Heap.set_same (h : Heap) (a : Nat) (o : Option Obj) : (h.set a o).at? a = o := by
  simp [Heap.set]

theorem Heap.set_other (h : Heap) {a b : Nat} (o : Option Obj) (hb : b ≠ a) :
    (h.set a o).at? b = h.at? b := by
  simp [Heap.set, hb]

theorem upd_set {h : Heap} (hok : h.Ok) {a : Nat} (ha : h.at? a ≠ none) (o : Obj) :
    Upd h (h.set a (some o)) [a] [a] := by
  have hlt := hok a ha
  refine ⟨?_, le_rfl, ?_, fun b h1 h2 => absurd h1 h2, fun b h1 h2 => absurd h1 h2, ?_, by simp⟩
  · intro b hb
    by_cases e : b = a
    · subst e
      exact hlt
    · rw [h.set_other _ e] at hb
      exact hok b hb
  · intro b hb _
    exact h.set_other _ (by simpa using hb)
  · intro b hb
    rw [List.mem_singleton.mp hb]
    exact hlt

theorem upd_free {h : Heap} (hok : h.Ok) (a : Nat) : Upd h (h.set a none) [a] [] := by
  refine ⟨?_, le_rfl, ?_, fun b h1 => (by cases h1), ?_, fun b h1 => (by cases h1), by simp⟩
  · intro b hb
    by_cases e : b = a
    · subst e
      rw [h.set_same] at hb
      exact absurd rfl hb
    · rw [h.set_other _ e] at hb
      exact hok b hb
  · intro b hb _
    exact h.set_other _ (by simpa using hb)
  · intro b hb _
    rw [List.mem_singleton.mp hb]
    exact h.set_same a none

theorem upd_new {h : Heap} (hok : h.Ok) (o : Obj) :
    Upd h (h.new o).2 [] [(h.new o).1] ∧ (h.new o).2.at? (h.new o).1 = some o := by
  refine ⟨⟨?_, by simp [Heap.new], ?_, ?_, fun b h1 => (by cases h1), ?_, by simp⟩, ?_⟩
  · intro b hb
    by_cases e : b = h.next
    · subst e
      simp [Heap.new]
    · have : (h.new o).2.at? b = h.at? b := by simp [Heap.new, Heap.set, e]
      rw [this] at hb
      have := hok b hb
      simp only [Heap.new]
      omega
  · intro b _ hb
    have : b ≠ h.next := by simpa [Heap.new] using hb
    simp [Heap.new, Heap.set, this]
  · intro b hb _
    rw [List.mem_singleton.mp hb]
    simp [Heap.new]
  · intro b hb
    rw [List.mem_singleton.mp hb]
    simp [Heap.new]
  · simp [Heap.new, Heap.set]

theorem Heap.buf_ok {h : Heap} {a : Nat} {m : Mem} (ha : h.at? a = some (.buf m)) : h.buf a = .ok m := by
  simp [Heap.buf, ha]

theorem Heap.node_ok {h : Heap} {a : Nat} {n : HVar} (ha : h.at? a = some (.node n)) :
    h.node a = .ok n := by
  simp [Heap.node, ha]

/-! ## Destruction -/

theorem deleteValue_ok {h : Heap} (hok : h.Ok) {v : HVar} {c : VarCore} {fp : List Nat}
    (hr : CoreRep h v c fp) : ∃ h', v.deleteValue h = .ok h' ∧ Upd h h' fp [] := by
  rcases hr with ⟨-, -, hr⟩
  unfold HVar.deleteValue
  generalize v.info = info at hr ⊢
  generalize v.cell = x at hr ⊢
  generalize c.cell = y at hr
  cases hr with
  | word ht i => exact ⟨h, by simp [ht], .refl hok (by simp) (by simp)⟩
  | null ht => exact ⟨h, by simp [ht, Heap.deleteCell], .refl hok (by simp) (by simp)⟩
  | @buf ht a m ha =>
    refine ⟨h.set a none, ?_, upd_free hok a⟩
    rw [if_pos ht]
    simp only [Heap.deleteCell, Heap.freeBuf, Heap.buf_ok ha, Res.ok_bind, Res.pure_def]

theorem destroy_ok (l : List VarCore) {h : Heap} (hok : h.Ok) {v : HVar} {c : VarCore} {p q : List Nat}
    (hc : CoreRep h v c p) (hl : ChainRep h v.attrs l q) (hn : (p ++ q).Nodup) {d : Nat}
    (hd : l.length < d) : ∃ h', HVar.destroy d h v = .ok h' ∧ Upd h h' (p ++ q) [] := by
  induction l generalizing h v c p q d with
  | nil =>
    obtain ⟨d, rfl⟩ : ∃ e, d = e + 1 := ⟨d - 1, by simp at hd; omega⟩
    obtain ⟨h1, a1, a2⟩ := deleteValue_ok hok hc
    generalize hx : v.attrs = x at hl
    cases hl
    refine ⟨h1, ?_, by simpa using a2⟩
    simp only [HVar.destroy, a1, Res.ok_bind, hx]
  | cons c' l ih =>
    obtain ⟨d, rfl⟩ : ∃ e, d = e + 1 := ⟨d - 1, by simp at hd; omega⟩
    have u0 : Upd h h (p ++ q) (p ++ q) := .refl hok hn fun a ha =>
      (List.mem_append.mp ha).elim (hc.cell.live a) (hl.live a)
    obtain ⟨hnp, hnq, hpq⟩ := List.nodup_append.mp hn
    obtain ⟨h1, a1, a2⟩ := deleteValue_ok hok hc
    have k1 := a2.keep hok (s := q) (fun a ha hb => hpq a hb a ha rfl) hl.live
    replace hl := hl.congr k1
    have u1 := u0.andThen hok a2 (s := q) (List.Perm.refl _)
    generalize hx : v.attrs = x at hl
    cases hl with
    | @cons a n _ _ pa qa ha hca hla =>
      have hnd : (pa ++ qa).Nodup := (List.nodup_cons.mp hnq).2
      obtain ⟨h2, b1, b2⟩ := ih a2.ok hca hla hnd (d := d) (by simpa using hd)
      have k2 := b2.keep a2.ok (s := [a]) (by simpa using (List.nodup_cons.mp hnq).1) (by simp [ha])
      have ha2 : h2.at? a = some (.node n) := by rw [k2 a (by simp)]; exact ha
      have u2 := u1.andThen hok b2 (s := [a]) (by perms)
      have u3 := u2.andThen hok (upd_free b2.ok a) (s := []) (by perms)
      refine ⟨h2.set a none, ?_, u3⟩
      simp only [HVar.destroy, a1, Res.ok_bind, hx, Heap.node_ok ha, b1, Heap.freeNode, Heap.node_ok ha2,
        Res.pure_def]

theorem deleteAttrs_ok {l : List VarCore} {h : Heap} (hok : h.Ok) {x : Option Nat} {q : List Nat}
    (hl : ChainRep h x l q) (hn : q.Nodup) {d : Nat} (hd : l.length ≤ d) :
    ∃ h', HVar.deleteAttrs d h x = .ok h' ∧ Upd h h' q [] := by
  cases hl with
  | nil => exact ⟨h, rfl, .refl hok (by simp) (by simp)⟩
  | @cons a n c l pa qa ha hca hla =>
    have hnd := List.nodup_cons.mp hn
    obtain ⟨h2, b1, b2⟩ := destroy_ok l hok hca hla hnd.2 (d := d) (by simp at hd; omega)
    have k2 := b2.keep hok (s := [a]) (by simpa using hnd.1) (by simp [ha])
    have ha2 : h2.at? a = some (.node n) := by rw [k2 a (by simp)]; exact ha
    have u0 : Upd h h (a :: (pa ++ qa)) (a :: (pa ++ qa)) := .refl hok hn
      (ChainRep.cons ha hca hla).live
    have u2 := u0.andThen hok b2 (s := [a]) (by perms)
    have u3 := u2.andThen hok (upd_free b2.ok a) (s := []) (by perms)
    refine ⟨h2.set a none, ?_, u3⟩
    simp only [HVar.deleteAttrs, Heap.node_ok ha, Res.ok_bind, b1, Heap.freeNode, Heap.node_ok ha2, Res.pure_def]

/-! ## Values -/

theorem store_ok {h : Heap} (hok : h.Ok) {v : HVar} {c : VarCore} {p : List Nat} (hc : CoreRep h v c p)
    (ht : isText v.info = true) {f : Mem → Res Mem} {m m' : Mem} (ha : c.allocate = .ok m)
    (hf : f m = .ok m') :
    ∃ h' v' p', v.store h f = .ok (h', v') ∧ Upd h h' p p' ∧
      CoreRep h' v' { c with isset := true, cell := .mem m' } p' ∧ v'.attrs = v.attrs ∧ v'.info = v.info := by
  obtain ⟨hi, -, hcell⟩ := hc
  rcases v with ⟨info, isset, cell, attrs⟩
  rcases c with ⟨info', isset', cell'⟩
  simp only at hi hcell ht
  subst hi
  cases hcell with
  | word ht' i => rw [ht'] at ht; cases ht
  | null _ =>
    simp only [VarCore.allocate, if_pos, Res.ok.injEq] at ha
    subst ha
    obtain ⟨u1, u2⟩ := upd_new hok (.buf (List.replicate (info.len + 1) none))
    generalize hr : h.new (.buf (List.replicate (info.len + 1) none)) = r at u1 u2
    have u3 := upd_set u1.ok (a := r.1) (by rw [u2]; exact fun x => by cases x) (.buf m')
    refine ⟨r.2.set r.1 (some (.buf m')), ⟨info, true, .addr r.1, attrs⟩, [r.1], ?_,
      (u1.andThen hok u3 (s := []) (by simp)), ⟨rfl, rfl, .buf ht (Heap.set_same ..)⟩, rfl, rfl⟩
    simp only [HVar.store, HVar.allocate, if_pos, Res.ok_bind, hr, Heap.buf_ok u2, hf, Res.pure_def]
  | @buf _ a m0 hm =>
    simp only [VarCore.allocate, Res.ok.injEq] at ha
    subst ha
    have u3 := upd_set hok (a := a) (by rw [hm]; exact fun x => by cases x) (.buf m')
    refine ⟨h.set a (some (.buf m')), ⟨info, true, .addr a, attrs⟩, [a], ?_, u3, ⟨rfl, rfl, .buf ht (Heap.set_same ..)⟩, rfl, rfl⟩
    simp only [HVar.store, HVar.allocate, Res.ok_bind, Heap.buf_ok hm, hf, Res.pure_def]

theorem read_ok {h : Heap} {v : HVar} {c : VarCore} {p : List Nat} (hc : CoreRep h v c p) {m : Mem}
    (hp : c.ptr = .ok m) : h.read v.cell = .ok m := by
  obtain ⟨-, -, hcell⟩ := hc
  unfold VarCore.ptr at hp
  generalize c.cell = y at hp hcell
  generalize v.cell = x at hcell ⊢
  cases hcell with
  | word _ i => cases hp
  | null _ => cases hp
  | buf _ ha =>
    simp only [Res.ok.injEq] at hp
    subst hp
    exact Heap.buf_ok ha

theorem word_ok {h : Heap} {v : HVar} {c : VarCore} {p : List Nat} (hc : CoreRep h v c p) {i : Int}
    (hp : c.cell = .word i) : v.cell = .word i := by
  obtain ⟨-, -, hcell⟩ := hc
  generalize c.cell = y at hp hcell
  generalize v.cell = x at hcell ⊢
  cases hcell with
  | word _ j => cases hp; rfl
  | null _ => cases hp; rfl
  | buf _ ha => cases hp

theorem copy_value_ok {h : Heap} (hok : h.Ok) {v s : HVar} {V V' : Var} {S : VarCore} {p ps : List Nat}
    (hc : CoreRep h v V.toVarCore p) (hs : CoreRep h s S ps) (hv : V.copy_value S = .ok V')
    (hn : p.Nodup) :
    ∃ h' v' p', v.copy_value h s = .ok (h', v') ∧ Upd h h' p p' ∧ CoreRep h' v' V'.toVarCore p' ∧
      v'.attrs = v.attrs ∧ V'.attrs = V.attrs ∧ v'.info = v.info := by
  unfold Var.copy_value at hv
  unfold HVar.copy_value
  rw [hs.isset]
  by_cases hset : S.isset = true
  · simp only [hset, Bool.not_true, Bool.false_eq_true, if_false] at hv ⊢
    rw [hc.info]
    cases hty : V.info.type
    · simp only [hty] at hv ⊢
      cases hcell : S.cell with
      | mem m => rw [hcell] at hv; cases hv
      | word i =>
        rw [hcell] at hv
        simp only [Res.ok.injEq] at hv
        subst hv
        rw [word_ok hs hcell]
        have ht : isText v.info = false := by rw [hc.info]; simp [isText, hty]
        obtain ⟨rfl⟩ : p = [] := by
          have := hc.cell
          generalize v.cell = x at this
          generalize V.cell = y at this
          cases this with
          | word _ _ => rfl
          | null h => rfl
          | buf h _ => rw [ht] at h; cases h
        exact ⟨h, _, [], rfl, .refl hok hn (by simp), ⟨rfl, rfl, .word (hc.info ▸ ht) i⟩, rfl, rfl, rfl⟩
    · simp only [hty] at hv ⊢
      cases hcell : S.cell with
      | mem m => rw [hcell] at hv; cases hv
      | word i =>
        rw [hcell] at hv
        simp only [Res.ok.injEq] at hv
        subst hv
        rw [word_ok hs hcell]
        have ht : isText v.info = false := by rw [hc.info]; simp [isText, hty]
        obtain ⟨rfl⟩ : p = [] := by
          have := hc.cell
          generalize v.cell = x at this
          generalize V.cell = y at this
          cases this with
          | word _ _ => rfl
          | null h => rfl
          | buf h _ => rw [ht] at h; cases h
        exact ⟨h, _, [], rfl, .refl hok hn (by simp), ⟨rfl, rfl, .word (hc.info ▸ ht) i⟩, rfl, rfl, rfl⟩
    · simp only [hty, Res.bind_eq_ok, Res.pure_def, Res.ok.injEq] at hv ⊢
      obtain ⟨m, h1, pt, h2, w, h3, m', h4, rfl⟩ := hv
      have ht : isText v.info = true := by rw [hc.info]; simp [isText, hty]
      obtain ⟨h', v', p', a1, a2, a3, a4, a5⟩ := store_ok hok hc ht h1 (m' := m')
        (f := fun m => do
          let p ← h.read s.cell
          let w ← memRead p (V.info.len + 1)
          memWrite m w)
        (by simp only [read_ok hs h2, Res.ok_bind, h3, h4])
      exact ⟨h', v', p', a1, a2, a3, a4, rfl, a5.trans hc.info⟩
    · simp only [hty, Res.bind_eq_ok, Res.pure_def, Res.ok.injEq] at hv ⊢
      obtain ⟨m, h1, pt, h2, w, h3, m', h4, rfl⟩ := hv
      have ht : isText v.info = true := by rw [hc.info]; simp [isText, hty]
      obtain ⟨h', v', p', a1, a2, a3, a4, a5⟩ := store_ok hok hc ht h1 (m' := m')
        (f := fun m => do
          let p ← h.read s.cell
          let w ← memRead p V.info.len
          memWrite m w)
        (by simp only [read_ok hs h2, Res.ok_bind, h3, h4])
      exact ⟨h', v', p', a1, a2, a3, a4, rfl, a5.trans hc.info⟩
  · replace hset : S.isset = false := by simpa using hset
    simp only [hset, Bool.not_false, if_true, Res.ok.injEq] at hv ⊢
    subst hv
    exact ⟨h, _, p, rfl, .refl hok hn hc.cell.live, ⟨hc.info, rfl, hc.cell⟩, rfl, rfl, rfl⟩

theorem new_rep (h : Heap) {info info' : Varinfo} (hi : info = info') :
    CoreRep h (HVar.new info) (Var.new info').toVarCore [] := by
  subst hi
  refine ⟨rfl, rfl, ?_⟩
  show CellRep h info (.word 0) (.word 0) []
  cases ht : isText info with
  | false => exact .word ht 0
  | true => exact .null ht

theorem copyAttrs_length {l L : List VarCore} (h : Var.copyAttrs l = .ok L) : L.length = l.length := by
  induction l generalizing L with
  | nil =>
    simp only [Var.copyAttrs, Res.ok.injEq] at h
    subst h
    rfl
  | cons a l ih =>
    simp only [Var.copyAttrs, Res.bind_eq_ok, Res.pure_def, Res.ok.injEq] at h
    obtain ⟨c, -, l', h2, rfl⟩ := h
    simp [ih h2]

/-- Fresh copies of a variable and of its attributes. -/
theorem copy_ok (l : List VarCore) {h : Heap} (hok : h.Ok) {s : HVar} {S : VarCore} {C : Var}
    {L : List VarCore} {ps qs : List Nat} (hs : CoreRep h s S ps) (hl : ChainRep h s.attrs l qs)
    (hC : (Var.new S.info).copy_value S = .ok C) (hL : Var.copyAttrs l = .ok L) {d : Nat}
    (hd : l.length < d) :
    ∃ h' v' p' q', HVar.copy d h s = .ok (h', v') ∧ Upd h h' [] (p' ++ q') ∧
      CoreRep h' v' C.toVarCore p' ∧ ChainRep h' v'.attrs L q' ∧ v'.info = s.info := by
  induction l generalizing h s S C L ps qs d with
  | nil =>
    obtain ⟨d, rfl⟩ : ∃ e, d = e + 1 := ⟨d - 1, by simp at hd; omega⟩
    obtain ⟨h1, v1, p1, a1, a2, a3, a4, a5, a6⟩ :=
      copy_value_ok hok (new_rep h hs.info) hs hC (by simp)
    generalize hx : s.attrs = x at hl
    cases hl
    simp only [Var.copyAttrs, Res.ok.injEq] at hL
    subst hL
    refine ⟨h1, v1, p1, [], ?_, by simpa using a2, a3, ?_, a6⟩
    · simp only [HVar.copy, a1, Res.ok_bind, hx]
    · rw [a4]
      exact .nil
  | cons c' l ih =>
    obtain ⟨d, rfl⟩ : ∃ e, d = e + 1 := ⟨d - 1, by simp at hd; omega⟩
    obtain ⟨h1, v1, p1, a1, a2, a3, a4, a5, a6⟩ :=
      copy_value_ok hok (new_rep h hs.info) hs hC (by simp)
    replace hl := hl.congr (a2.keep hok (by simp) hl.live)
    generalize hx : s.attrs = x at hl
    cases hl with
    | @cons a n _ _ pa qa ha hca hla =>
      simp only [Var.copyAttrs, Res.bind_eq_ok, Res.pure_def, Res.ok.injEq] at hL
      obtain ⟨c, hc, L', hL', rfl⟩ := hL
      obtain ⟨h2, v2, p2, q2, b1, b2, b3, b4, b5⟩ :=
        ih a2.ok hca hla hc hL' (d := d) (by simpa using hd)
      replace a3 := a3.congr (b2.keep a2.ok (by simp) a3.cell.live)
      obtain ⟨e1, e2⟩ := upd_new b2.ok (.node v2)
      generalize hr : h2.new (.node v2) = r at e1 e2
      replace a3 := a3.congr (e1.keep b2.ok (by simp) a3.cell.live)
      replace b3 := b3.congr (e1.keep b2.ok (by simp) b3.cell.live)
      replace b4 := b4.congr (e1.keep b2.ok (by simp) b4.live)
      have u := (a2.andThen hok b2 (s := p1) (by simp)).andThen hok e1 (s := p2 ++ q2 ++ p1) (by simp)
      refine ⟨r.2, { v1 with attrs := some r.1 }, p1, r.1 :: (p2 ++ q2), ?_,
        u.perm (.refl _) (by perms), ⟨a3.info, a3.isset, a3.cell⟩, .cons e2 b3 b4, a6⟩
      simp only [HVar.copy, a1, Res.ok_bind, hx, Heap.node_ok ha, b1, hr, Res.pure_def]

theorem clear_attrs_ok {l : List VarCore} {h : Heap} (hok : h.Ok) {v : HVar} {q : List Nat}
    (hl : ChainRep h v.attrs l q) (hn : q.Nodup) {d : Nat} (hd : l.length ≤ d) :
    ∃ h', v.clear_attrs d h = .ok (h', { v with attrs := none }) ∧ Upd h h' q [] := by
  obtain ⟨h1, a1, a2⟩ := deleteAttrs_ok hok hl hn hd
  exact ⟨h1, by simp only [HVar.clear_attrs, a1, Res.ok_bind, Res.pure_def], a2⟩

theorem setattrs_ok {l ls L : List VarCore} {h : Heap} (hok : h.Ok) {v s : HVar} {q qs : List Nat}
    (hl : ChainRep h v.attrs l q) (hs : ChainRep h s.attrs ls qs) (hL : Var.copyAttrs ls = .ok L)
    (hn : (q ++ qs).Nodup) {d : Nat} (hd : l.length ≤ d) (hd' : ls.length ≤ d) :
    ∃ h' x q', v.setattrs d h s = .ok (h', { v with attrs := x }) ∧ Upd h h' q q' ∧
      ChainRep h' x L q' := by
  obtain ⟨hnq, -, hqs⟩ := List.nodup_append.mp hn
  obtain ⟨h1, a1, a2⟩ := clear_attrs_ok hok hl hnq hd
  replace hs := hs.congr (a2.keep hok (fun a ha hb => hqs a hb a ha rfl) hs.live)
  generalize hx : s.attrs = x at hs
  cases hs with
  | nil =>
    simp only [Var.copyAttrs, Res.ok.injEq] at hL
    subst hL
    exact ⟨h1, none, [], by simp only [HVar.setattrs, a1, Res.ok_bind, hx], a2, .nil⟩
  | @cons a n c' l' pa qa ha hca hla =>
    simp only [Var.copyAttrs, Res.bind_eq_ok, Res.pure_def, Res.ok.injEq] at hL
    obtain ⟨c, hc, L', hL', rfl⟩ := hL
    obtain ⟨h2, v2, p2, q2, b1, b2, b3, b4, b5⟩ :=
      copy_ok l' a2.ok hca hla hc hL' (d := d) (by simp at hd'; omega)
    obtain ⟨e1, e2⟩ := upd_new b2.ok (.node v2)
    generalize hr : h2.new (.node v2) = r at e1 e2
    replace b3 := b3.congr (e1.keep b2.ok (by simp) b3.cell.live)
    replace b4 := b4.congr (e1.keep b2.ok (by simp) b4.live)
    have u := (a2.andThen hok b2 (s := []) (by simp)).andThen hok e1 (s := p2 ++ q2) (by simp)
    refine ⟨r.2, some r.1, r.1 :: (p2 ++ q2), ?_, u.perm (.refl _) (by perms), .cons e2 b3 b4⟩
    simp only [HVar.setattrs, a1, Res.ok_bind, hx, Heap.node_ok ha, b1, hr, Res.pure_def]

theorem CellRep.retype {h : Heap} {info info' : Varinfo} {x : HCell} {y : Cell} {fp : List Nat}
    (hr : CellRep h info x y fp) (ht : isText info' = isText info) : CellRep h info' x y fp := by
  cases hr with
  | word h i => exact .word (ht.trans h) i
  | null h => exact .null (ht.trans h)
  | buf h ha => exact .buf (ht.trans h) ha

theorem assign_ok {h : Heap} (hok : h.Ok) {v s : HVar} {V S V' : Var} {p q ps qs : List Nat}
    (hv : VarRep h v V p q) (hs : VarRep h s S ps qs) (ht : isText V.info = isText S.info)
    (hV : V.assign S = .ok V') (hn : ((p ++ q) ++ (ps ++ qs)).Nodup) {d : Nat}
    (hd : V.attrs.length ≤ d) (hd' : S.attrs.length ≤ d) :
    ∃ h' v' p' q', v.assign d h s = .ok (h', v') ∧ Upd h h' (p ++ q) (p' ++ q') ∧
      VarRep h' v' V' p' q' := by
  obtain ⟨hn1, hn2, hn3⟩ := List.nodup_append.mp hn
  obtain ⟨hnp, hnq, hpq⟩ := List.nodup_append.mp hn1
  simp only [Var.assign, Var.setattrs, Res.bind_eq_ok, Res.pure_def, Res.ok.injEq] at hV
  obtain ⟨W, hW, L, hL, rfl⟩ := hV
  have u0 : Upd h h (p ++ q) (p ++ q) := .refl hok hn1 fun a ha =>
    (List.mem_append.mp ha).elim (hv.core.cell.live a) (hv.chain.live a)
  have hc : CoreRep h { v with info := s.info } ({ V with info := S.info } : Var).toVarCore p :=
    ⟨hs.core.info, hv.core.isset, hv.core.cell.retype (by rw [hv.core.info, ht, hs.core.info])⟩
  obtain ⟨h1, v1, p1, a1, a2, a3, a4, a5, a6⟩ := copy_value_ok hok hc hs.core hW hnp
  have hq1 := hv.chain.congr (a2.keep hok (fun a ha hb => hpq a hb a ha rfl) hv.chain.live)
  have hs1 := hs.chain.congr (a2.keep hok
    (fun a ha hb => hn3 a (by simp [hb]) a (by simp [ha]) rfl) hs.chain.live)
  have hn4 : (q ++ qs).Nodup := by
    refine List.nodup_append.mpr ⟨hnq, (List.nodup_append.mp hn2).2.1, ?_⟩
    rintro a ha b hb rfl
    exact hn3 a (by simp [ha]) a (by simp [hb]) rfl
  have u1 := u0.andThen hok a2 (s := q) (.refl _)
  obtain ⟨h2, x, q2, b1, b2, b3⟩ := setattrs_ok a2.ok (v := v1) (by rw [a4]; exact hq1) hs1 hL hn4 hd hd'
  have u2 := u1.andThen hok b2 (s := p1) (by perms)
  have hd1 : ∀ a ∈ p1, a ∉ q := fun a ha hb => (List.nodup_append.mp u1.nodup).2.2 a ha a hb rfl
  have a3' := a3.congr (b2.keep a2.ok hd1 a3.cell.live)
  refine ⟨h2, { v1 with attrs := x }, p1, q2, ?_, u2.perm (.refl _) (by perms),
    ⟨⟨a3'.info, a3'.isset, a3'.cell⟩, b3⟩⟩
  simp only [HVar.assign, a1, Res.ok_bind, b1]

/-! ## Moves -/

theorem move_value_ok {h : Heap} (hok : h.Ok) {v s : HVar} {V S : Var} {p ps : List Nat}
    (hv : CoreRep h v V.toVarCore p) (hs : CoreRep h s S.toVarCore ps)
    (ht : isText V.info = isText S.info) (hn : (p ++ ps).Nodup) :
    ∃ h' v' s' p' ps', v.move_value h s = .ok (h', v', s') ∧ Upd h h' (p ++ ps) (p' ++ ps') ∧
      CoreRep h' v' (V.move_value S).1.toVarCore p' ∧ CoreRep h' s' (V.move_value S).2.toVarCore ps' ∧
      v'.attrs = v.attrs ∧ s'.attrs = s.attrs := by
  have u0 : Upd h h (p ++ ps) (p ++ ps) := .refl hok hn fun a ha =>
    (List.mem_append.mp ha).elim (hv.cell.live a) (hs.cell.live a)
  unfold HVar.move_value Var.move_value
  rw [hs.isset]
  by_cases hset : S.isset = true
  · simp only [hset, Bool.not_true, Bool.false_eq_true, if_false]
    cases htx : isText V.info with
    | true =>
      have hty : V.info.type = .string ∨ V.info.type = .binary := by
        revert htx
        unfold isText
        cases V.info.type <;> simp
      obtain ⟨h1, a1, a2⟩ := deleteValue_ok hok hv
      rw [HVar.deleteValue, hv.info, htx, if_pos rfl] at a1
      have u1 := u0.andThen hok a2 (s := ps) (.refl _)
      have hd1 : ∀ a ∈ ps, a ∉ p := fun a ha hb => (List.nodup_append.mp hn).2.2 a hb a ha rfl
      have hs1 := hs.congr (a2.keep hok hd1 hs.cell.live)
      rw [hv.info]
      rcases hty with hty | hty
      all_goals
        simp only [hty, a1, Res.ok_bind, Res.pure_def]
        refine ⟨h1, _, _, ps, [], rfl, u1.perm (.refl _) (by perms), ⟨rfl, rfl, ?_⟩,
          ⟨hs1.info, rfl, ?_⟩, rfl, rfl⟩
        · exact hs1.cell.retype (by rw [hs1.info]; exact ht)
        · exact .null (by rw [hs1.info, ← ht, htx])
    | false =>
      have hty : V.info.type = .integer ∨ V.info.type = .decimal := by
        revert htx
        unfold isText
        cases V.info.type <;> simp
      obtain ⟨i, hi, hi', rfl⟩ : ∃ i, s.cell = .word i ∧ S.cell = .word i ∧ ps = [] := by
        have := hs.cell
        rw [hs.info] at this
        generalize s.cell = x at this ⊢
        generalize S.cell = y at this ⊢
        rw [ht] at htx
        cases this with
        | word _ i => exact ⟨i, rfl, rfl, rfl⟩
        | null h => rw [htx] at h; cases h
        | buf h _ => rw [htx] at h; cases h
      rw [hv.info, hi, hi']
      have hp : p = [] := by
        have := hv.cell
        rw [hv.info] at this
        generalize v.cell = x at this
        generalize V.cell = y at this
        cases this with
        | word _ i => rfl
        | null h => rfl
        | buf h _ => rw [htx] at h; cases h
      subst hp
      rcases hty with hty | hty
      all_goals
        simp only [hty]
        exact ⟨h, _, _, [], [], rfl, u0, ⟨rfl, rfl, .word htx i⟩,
          ⟨hs.info, rfl, by have := hs.cell; rw [hi, hi'] at this; exact this⟩, rfl, rfl⟩
  · replace hset : S.isset = false := by simpa using hset
    simp only [hset, Bool.not_false, if_true]
    exact ⟨h, _, _, p, ps, rfl, u0, ⟨hv.info, rfl, hv.cell⟩, hs, rfl, rfl⟩

theorem move_ok {h : Heap} (hok : h.Ok) {s : HVar} {S : Var} {p q : List Nat} (hs : VarRep h s S p q)
    (hn : (p ++ q).Nodup) :
    ∃ h' v' s' p1 q1 p2 q2, s.move h = .ok (h', v', s') ∧
      Upd h h' (p ++ q) ((p1 ++ q1) ++ (p2 ++ q2)) ∧
      VarRep h' v' S.move.1 p1 q1 ∧ VarRep h' s' S.move.2 p2 q2 := by
  obtain ⟨hnp, hnq, hpq⟩ := List.nodup_append.mp hn
  have u0 : Upd h h (p ++ q) (p ++ q) := .refl hok hn fun a ha =>
    (List.mem_append.mp ha).elim (hs.core.cell.live a) (hs.chain.live a)
  have hnew : CoreRep h { HVar.new s.info with attrs := s.attrs } (Var.new S.info).toVarCore [] :=
    ⟨(new_rep h hs.core.info).info, rfl, (new_rep h hs.core.info).cell⟩
  obtain ⟨h1, v1, s1, p1, ps1, a1, a2, a3, a4, a5, a6⟩ :=
    move_value_ok (V := Var.new S.info) hok hnew hs.core rfl (by simpa using hnp)
  have u1 := u0.andThen hok a2 (s := q) (.refl _)
  have hq1 := hs.chain.congr (a2.keep hok (fun a ha hb => hpq a (by simpa using hb) a ha rfl) hs.chain.live)
  refine ⟨h1, v1, { s1 with attrs := none }, p1, q, ps1, [], ?_, u1.perm (.refl _) (by perms),
    ⟨⟨a3.info, a3.isset, a3.cell⟩, ?_⟩, ⟨⟨a4.info, a4.isset, a4.cell⟩, .nil⟩⟩
  · simp only [HVar.move, a1, Res.ok_bind, Res.pure_def]
  · rw [a5]
    exact hq1

theorem moveAssign_ok {h : Heap} (hok : h.Ok) {v s : HVar} {V S : Var} {p q ps qs : List Nat}
    (hv : VarRep h v V p q) (hs : VarRep h s S ps qs) (ht : isText V.info = isText S.info)
    (hn : ((p ++ q) ++ (ps ++ qs)).Nodup) {d : Nat} (hd : V.attrs.length ≤ d) :
    ∃ h' v' s' p1 q1 p2 q2, v.moveAssign d h s = .ok (h', v', s') ∧
      Upd h h' ((p ++ q) ++ (ps ++ qs)) ((p1 ++ q1) ++ (p2 ++ q2)) ∧
      VarRep h' v' (V.moveAssign S).1 p1 q1 ∧ VarRep h' s' (V.moveAssign S).2 p2 q2 := by
  have hlive : ∀ a ∈ (p ++ q) ++ (ps ++ qs), h.at? a ≠ none := by
    intro a ha
    simp only [List.mem_append] at ha
    rcases ha with (ha | ha) | ha | ha
    · exact hv.core.cell.live a ha
    · exact hv.chain.live a ha
    · exact hs.core.cell.live a ha
    · exact hs.chain.live a ha
  have u0 : Upd h h ((p ++ q) ++ (ps ++ qs)) ((p ++ ps) ++ (q ++ qs)) :=
    (Upd.refl hok hn hlive).perm (.refl _) (by perms)
  obtain ⟨n1, n2, n3⟩ := List.nodup_append.mp u0.nodup
  obtain ⟨h1, v1, s1, p1, ps1, a1, a2, a3, a4, a5, a6⟩ := move_value_ok hok hv.core hs.core ht n1
  have u1 := u0.andThen hok a2 (.refl _)
  have hq1 := hv.chain.congr (a2.keep hok (fun a ha hb => n3 a hb a (by simp [ha]) rfl) hv.chain.live)
  have hqs1 := hs.chain.congr (a2.keep hok (fun a ha hb => n3 a hb a (by simp [ha]) rfl) hs.chain.live)
  obtain ⟨h2, b1, b2⟩ := deleteAttrs_ok a2.ok hq1 (List.nodup_append.mp n2).1 hd
  have u2 := u1.andThen hok b2 (s := (p1 ++ ps1) ++ qs) (by perms)
  have hdis : ∀ a ∈ (p1 ++ ps1) ++ qs, a ∉ q := by
    intro a ha hb
    have : (q ++ ((p1 ++ ps1) ++ qs)).Nodup :=
      (List.Perm.nodup_iff (by perms)).mp u1.nodup
    exact (List.nodup_append.mp this).2.2 a hb a ha rfl
  have a3' := a3.congr (b2.keep a2.ok (fun a ha => hdis a (by simp [ha])) a3.cell.live)
  have a4' := a4.congr (b2.keep a2.ok (fun a ha => hdis a (by simp [ha])) a4.cell.live)
  have hqs2 := hqs1.congr (b2.keep a2.ok (fun a ha => hdis a (by simp [ha])) hqs1.live)
  refine ⟨h2, { v1 with attrs := s1.attrs }, { s1 with attrs := none }, p1, qs, ps1, [], ?_,
    u2.perm (.refl _) (by perms), ⟨⟨a3'.info, a3'.isset, a3'.cell⟩, ?_⟩,
    ⟨⟨a4'.info, a4'.isset, a4'.cell⟩, .nil⟩⟩
  · simp only [HVar.moveAssign, a1, Res.ok_bind, a5, b1, Res.pure_def]
  · show ChainRep h2 s1.attrs S.attrs qs
    rw [a6]
    exact hqs2

/-! ## Attributes -/

theorem dis_of_nodup {p q : List Nat} (h : (p ++ q).Nodup) : ∀ a ∈ q, a ∉ p :=
  fun a ha hb => (List.nodup_append.mp h).2.2 a hb a ha rfl

theorem setaMove_ok (l : List VarCore) {ln : List VarCore} {h : Heap} (hok : h.Ok) {v n : HVar}
    {c : VarCore} {x : Nat} {q pn qn : List Nat} (hl : ChainRep h v.attrs l q)
    (hx : h.at? x = some (.node n)) (hc : CoreRep h n c pn) (hln : ChainRep h n.attrs ln qn)
    (hn : (q ++ x :: (pn ++ qn)).Nodup) {d : Nat} (hd : l.length + ln.length < d) :
    ∃ h' y q', v.setaMove d h x = .ok (h', { v with attrs := y }) ∧
      Upd h h' (q ++ x :: (pn ++ qn)) q' ∧ ChainRep h' y (Var.setaList c l) q' := by
  induction l generalizing ln h v n q qn d with
  | nil =>
    obtain ⟨d, rfl⟩ : ∃ e, d = e + 1 := ⟨d - 1, by simp at hd; omega⟩
    generalize ha : v.attrs = va at hl
    cases hl
    have u0 : Upd h h ([] ++ x :: (pn ++ qn)) (qn ++ (x :: pn)) :=
      (Upd.refl hok hn (ChainRep.cons hx hc hln).live).perm (.refl _) (by perms)
    have hdq := dis_of_nodup u0.nodup
    obtain ⟨h1, a1, a2⟩ := clear_attrs_ok hok hln (List.nodup_append.mp u0.nodup).1
      (d := d) (by simp at hd; omega)
    have u1 := u0.andThen hok a2 (.refl _)
    have hx1 : h1.at? x = some (.node n) := by
      rw [a2.keep hok (s := [x]) (by simpa using hdq x (by simp)) (by simp [hx]) x (by simp)]
      exact hx
    have hc1 := hc.congr (a2.keep hok (fun a ha => hdq a (by simp [ha])) hc.cell.live)
    have s1 := upd_set a2.ok (a := x) (by rw [hx1]; exact fun e => by cases e)
      (.node { n with attrs := none })
    have u2 := u1.andThen hok s1 (s := pn) (by perms)
    have hc2 := hc1.congr (s1.keep a2.ok (s := pn)
      (fun a ha hb => by
        rw [List.mem_singleton.mp hb] at ha
        exact (List.nodup_append.mp u2.nodup).2.2 x (by simp) x ha rfl) hc1.cell.live)
    refine ⟨h1.set x (some (.node { n with attrs := none })), some x, x :: (pn ++ []), ?_,
      u2.perm (.refl _) (by perms), .cons (Heap.set_same ..) ⟨hc2.info, hc2.isset, hc2.cell⟩ .nil⟩
    simp only [HVar.setaMove, Heap.node_ok hx, Res.ok_bind, a1, ha, Res.pure_def]
  | cons b l ih =>
    obtain ⟨d, rfl⟩ : ∃ e, d = e + 1 := ⟨d - 1, by simp at hd; omega⟩
    have u0 : Upd h h (q ++ x :: (pn ++ qn)) (qn ++ (x :: (pn ++ q))) :=
      (Upd.refl hok hn (fun a ha => (List.mem_append.mp ha).elim (hl.live a)
        ((ChainRep.cons hx hc hln).live a))).perm (.refl _) (by perms)
    have hdq := dis_of_nodup u0.nodup
    obtain ⟨h1, a1, a2⟩ := clear_attrs_ok hok hln (List.nodup_append.mp u0.nodup).1
      (d := d) (by simp at hd; omega)
    have u1 := u0.andThen hok a2 (.refl _)
    have hx1 : h1.at? x = some (.node n) := by
      rw [a2.keep hok (s := [x]) (by simpa using hdq x (by simp)) (by simp [hx]) x (by simp)]
      exact hx
    have hc1 := hc.congr (a2.keep hok (fun a ha => hdq a (by simp [ha])) hc.cell.live)
    have hl1 := hl.congr (a2.keep hok (fun a ha => hdq a (by simp [ha])) hl.live)
    have hxd : ∀ a ∈ pn ++ q, a ≠ x := by
      rintro a ha rfl
      exact (List.nodup_cons.mp u1.nodup).1 ha
    have hset : ∀ o : HVar, Upd h1 (h1.set x (some (.node o))) [x] [x] := fun o =>
      upd_set a2.ok (by rw [hx1]; exact fun e => by cases e) _
    generalize ha : v.attrs = va at hl hl1
    cases hl1 with
    | @cons a old _ _ pa qa hold hca hla =>
      have hcode : ({ n with attrs := none } : HVar).code = c.code := by
        simp only [HVar.code, VarCore.code, hc.info]
      have hold' : old.code = b.code := by simp only [HVar.code, VarCore.code, hca.info]
      have hax : a ≠ x := hxd a (by simp)
      by_cases hlt : c.code < b.code
      · -- in front
        have s1 := hset { n with attrs := some a }
        have u2 := u1.andThen hok s1 (s := pn ++ a :: (pa ++ qa)) (by perms)
        have k := s1.keep a2.ok (s := pn ++ a :: (pa ++ qa))
          (fun e he hb => hxd e he (List.mem_singleton.mp hb)) (fun e he =>
            (List.mem_append.mp he).elim (hc1.cell.live e) ((ChainRep.cons hold hca hla).live e))
        have hc2 := hc1.congr fun e he => k e (by simp [he])
        have hl2 := (ChainRep.cons hold hca hla).congr fun e he => k e (by simp only [List.mem_append]; exact .inr he)
        refine ⟨_, some x, x :: (pn ++ a :: (pa ++ qa)), ?_, u2.perm (.refl _) (by perms), ?_⟩
        · simp only [HVar.setaMove, Heap.node_ok hx, Res.ok_bind, a1, ha, Heap.node_ok hold, hcode, hold',
            if_pos hlt, Res.pure_def]
        · rw [Var.setaList, if_pos hlt]
          exact .cons (Heap.set_same ..) ⟨hc2.info, hc2.isset, hc2.cell⟩ hl2
      · by_cases heq : b.code = c.code
        · -- in place
          have s1 := hset { n with attrs := old.attrs }
          have u2 := u1.andThen hok s1 (s := pn ++ a :: (pa ++ qa)) (by perms)
          have k := s1.keep a2.ok (s := pn ++ a :: (pa ++ qa))
            (fun e he hb => hxd e he (List.mem_singleton.mp hb)) (fun e he =>
              (List.mem_append.mp he).elim (hc1.cell.live e) ((ChainRep.cons hold hca hla).live e))
          have hc2 := hc1.congr fun e he => k e (by simp [he])
          have hca2 := hca.congr fun e he => k e (by simp [he])
          have hla2 := hla.congr fun e he => k e (by simp [he])
          have hold2 : (h1.set x (some (.node { n with attrs := old.attrs }))).at? a = some (.node old) := by
            rw [k a (by simp)]
            exact hold
          generalize hg : h1.set x (some (.node { n with attrs := old.attrs })) = h2 at *
          have hx2 : h2.at? x = some (.node { n with attrs := old.attrs }) := by
            rw [← hg]
            exact Heap.set_same ..
          have hnp : (pa ++ []).Nodup ∧ (pa ++ (a :: x :: (pn ++ qa))).Nodup := by
            have : (pa ++ (a :: x :: (pn ++ qa))).Nodup := (List.Perm.nodup_iff (by perms)).mp u2.nodup
            exact ⟨by simpa using (List.nodup_append.mp this).1, this⟩
          have hdp := dis_of_nodup hnp.2
          obtain ⟨h3, b1, b2⟩ := destroy_ok [] s1.ok (v := { old with attrs := none })
            ⟨hca2.info, hca2.isset, hca2.cell⟩ .nil hnp.1 (d := d) (by simp at hd ⊢; omega)
          have u3 := u2.andThen hok b2 (s := a :: x :: (pn ++ qa)) (by perms)
          have k3 := b2.keep s1.ok (s := a :: x :: (pn ++ qa)) (by simpa using hdp) (by
            intro e he
            simp only [List.mem_cons, List.mem_append] at he
            rcases he with rfl | rfl | he | he
            · rw [hold2]; exact fun z => by cases z
            · rw [hx2]; exact fun z => by cases z
            · exact hc2.cell.live e he
            · exact hla2.live e he)
          have u4 := u3.andThen hok (upd_free b2.ok a) (s := x :: (pn ++ qa)) (by perms)
          have hda : ∀ e ∈ x :: (pn ++ qa), e ≠ a := by
            rintro e he rfl
            exact (List.nodup_cons.mp (show (e :: x :: (pn ++ qa)).Nodup from u3.nodup)).1 he
          have k4 : ∀ e ∈ x :: (pn ++ qa), (h3.set a none).at? e = h2.at? e := fun e he => by
            rw [h3.set_other _ (hda e he), k3 e (List.mem_cons_of_mem _ he)]
          refine ⟨h3.set a none, some x, x :: (pn ++ qa), ?_, u4.perm (.refl _) (by perms), ?_⟩
          · have hold3 : h3.at? a = some (.node old) := by rw [k3 a (by simp)]; exact hold2
            simp only [HVar.setaMove, Heap.node_ok hx, Res.ok_bind, a1, ha, Heap.node_ok hold, hcode, hold',
              if_neg hlt, if_pos heq, hg, b1, Heap.freeNode, Heap.node_ok hold3, Res.pure_def]
          · rw [Var.setaList, if_neg hlt, if_pos heq]
            refine .cons (n := { n with attrs := old.attrs }) ?_ ?_ (hla2.congr fun e he => k4 e (by simp [he]))
            · rw [k4 x (by simp)]
              exact hx2
            · have := hc2.congr fun e he => k4 e (by simp [he])
              exact ⟨this.info, this.isset, this.cell⟩
        · -- further on
          have s1 := hset { n with attrs := none }
          have u2 := u1.andThen hok s1 (s := pn ++ a :: (pa ++ qa)) (by perms)
          have k := s1.keep a2.ok (s := pn ++ a :: (pa ++ qa))
            (fun e he hb => hxd e he (List.mem_singleton.mp hb)) (fun e he =>
              (List.mem_append.mp he).elim (hc1.cell.live e) ((ChainRep.cons hold hca hla).live e))
          have hc2 := hc1.congr fun e he => k e (by simp [he])
          have hca2 := hca.congr fun e he => k e (by simp [he])
          have hla2 := hla.congr fun e he => k e (by simp [he])
          have hold2 : (h1.set x (some (.node { n with attrs := none }))).at? a = some (.node old) := by
            rw [k a (by simp)]
            exact hold
          have hx2 : (h1.set x (some (.node { n with attrs := none }))).at? x =
            some (.node { n with attrs := none }) := Heap.set_same ..
          generalize hg : h1.set x (some (.node { n with attrs := none })) = h2 at *
          have hnp : ((qa ++ x :: (pn ++ [])) ++ (a :: pa)).Nodup :=
            (List.Perm.nodup_iff (by perms)).mp u2.nodup
          obtain ⟨h3, y, q3, b1, b2, b3⟩ := ih s1.ok hla2 hx2 (ln := []) (qn := [])
            ⟨hc2.info, hc2.isset, hc2.cell⟩ .nil (List.nodup_append.mp hnp).1 (d := d)
            (by simp at hd ⊢; omega)
          have u3 := u2.andThen hok b2 (s := a :: pa) (by perms)
          have k3 := b2.keep s1.ok (s := a :: pa) (dis_of_nodup hnp) (by
            intro e he
            rcases List.mem_cons.mp he with rfl | he
            · rw [hold2]; exact fun z => by cases z
            · exact hca2.cell.live e he)
          have hca3 := hca2.congr fun e he => k3 e (by simp [he])
          have hold3 : h3.at? a = some (.node old) := by rw [k3 a (by simp)]; exact hold2
          have s4 := upd_set b2.ok (a := a) (by rw [hold3]; exact fun z => by cases z)
            (.node { old with attrs := y })
          have u4 := u3.andThen hok s4 (s := pa ++ q3) (by perms)
          have hda : ∀ e ∈ pa ++ q3, e ∉ [a] := by
            have : ([a] ++ (pa ++ q3)).Nodup := (List.Perm.nodup_iff (by perms)).mp u3.nodup
            exact dis_of_nodup this
          have k4 := s4.keep b2.ok (s := pa ++ q3) hda
            (fun e he => (List.mem_append.mp he).elim (hca3.cell.live e) (b3.live e))
          refine ⟨h3.set a (some (.node { old with attrs := y })), some a, a :: (pa ++ q3), ?_,
            u4.perm (.refl _) (by perms), ?_⟩
          · simp only [HVar.setaMove, Heap.node_ok hx, Res.ok_bind, a1, ha, Heap.node_ok hold, hcode, hold',
              if_neg hlt, if_neg heq, hg, b1, Res.pure_def]
            rw [← ha]
          · rw [Var.setaList, if_neg hlt, if_neg heq]
            refine .cons (Heap.set_same ..) ?_ (b3.congr fun e he => k4 e (by simp [he]))
            have := hca3.congr fun e he => k4 e (by simp [he])
            exact ⟨this.info, this.isset, this.cell⟩

theorem seta_ok {h : Heap} (hok : h.Ok) {v s : HVar} {l : List VarCore} {S C : Var} {q ps qs : List Nat}
    (hl : ChainRep h v.attrs l q) (hs : VarRep h s S ps qs) (hC : S.copy = .ok C) (hn : q.Nodup) {d : Nat}
    (hd : l.length + S.attrs.length < d) :
    ∃ h' y q', v.seta d h s = .ok (h', { v with attrs := y }) ∧ Upd h h' q q' ∧
      ChainRep h' y (Var.setaList C.toVarCore l) q' := by
  simp only [Var.copy, Var.setattrs, Res.bind_eq_ok, Res.pure_def, Res.ok.injEq] at hC
  obtain ⟨W, hW, L, hL, rfl⟩ := hC
  obtain ⟨h1, c1, p1, q1, a1, a2, a3, a4, -⟩ := copy_ok S.attrs hok hs.core hs.chain hW hL (d := d) (by omega)
  have u0 : Upd h h q ([] ++ q) := .refl hok hn hl.live
  have u1 := u0.andThen hok a2 (.refl _)
  have hl1 := hl.congr (a2.keep hok (by simp) hl.live)
  obtain ⟨e1, e2⟩ := upd_new a2.ok (.node c1)
  generalize hr : h1.new (.node c1) = r at e1 e2
  have u2 := u1.andThen hok e1 (s := (p1 ++ q1) ++ q) (by simp)
  have a3' := a3.congr (e1.keep a2.ok (by simp) a3.cell.live)
  have a4' := a4.congr (e1.keep a2.ok (by simp) a4.live)
  have hl2 := hl1.congr (e1.keep a2.ok (by simp) hl1.live)
  have hLl : L.length = S.attrs.length := copyAttrs_length hL
  obtain ⟨h3, y, q3, b1, b2, b3⟩ := setaMove_ok l e1.ok hl2 e2 a3' a4'
    ((List.Perm.nodup_iff (by perms)).mp u2.nodup) (d := d) (by omega)
  have u3 := u2.andThen hok b2 (s := []) (by perms)
  refine ⟨h3, y, q3, ?_, u3.perm (.refl _) (by simp), b3⟩
  simp only [HVar.seta, a1, Res.ok_bind, hr, b1]

theorem unseta_ok (l : List VarCore) {h : Heap} (hok : h.Ok) {v : HVar} {q : List Nat} {code : Varcode}
    (hl : ChainRep h v.attrs l q) (hn : q.Nodup) {d : Nat} (hd : l.length < d) :
    ∃ h' y q', v.unseta d h code = .ok (h', { v with attrs := y }) ∧ Upd h h' q q' ∧
      ChainRep h' y (Var.unsetaList code l) q' := by
  induction l generalizing h v q d with
  | nil =>
    obtain ⟨d, rfl⟩ : ∃ e, d = e + 1 := ⟨d - 1, by simp at hd; omega⟩
    generalize ha : v.attrs = va at hl
    cases hl
    refine ⟨h, none, [], ?_, .refl hok hn (by simp), .nil⟩
    simp only [HVar.unseta, ha]
    rw [← ha]
  | cons b l ih =>
    obtain ⟨d, rfl⟩ : ∃ e, d = e + 1 := ⟨d - 1, by simp at hd; omega⟩
    have u0 : Upd h h q q := .refl hok hn hl.live
    generalize ha : v.attrs = va at hl
    have hl0 := hl
    cases hl with
    | @cons a old _ _ pa qa hold hca hla =>
      have hold' : old.code = b.code := by simp only [HVar.code, VarCore.code, hca.info]
      by_cases hlt : code < b.code
      · refine ⟨h, some a, _, ?_, u0, ?_⟩
        · simp only [HVar.unseta, ha, Heap.node_ok hold, Res.ok_bind, hold', if_pos hlt]
          rw [← ha]
        · rw [Var.unsetaList, if_pos hlt]
          exact hl0
      · by_cases heq : b.code = code
        · have hnp : ((pa ++ []) ++ (a :: qa)).Nodup := (List.Perm.nodup_iff (by perms)).mp hn
          have hdp := dis_of_nodup hnp
          obtain ⟨h3, b1, b2⟩ := destroy_ok [] hok (v := { old with attrs := none })
            ⟨hca.info, hca.isset, hca.cell⟩ .nil (List.nodup_append.mp hnp).1 (d := d)
            (by simp at hd ⊢; omega)
          have u3 := u0.andThen hok b2 (s := a :: qa) (by perms)
          have k3 := b2.keep hok (s := a :: qa) hdp (by
            intro e he
            rcases List.mem_cons.mp he with rfl | he
            · rw [hold]; exact fun z => by cases z
            · exact hla.live e he)
          have u4 := u3.andThen hok (upd_free b2.ok a) (s := qa) (by perms)
          have hda : ∀ e ∈ qa, e ≠ a := by
            rintro e he rfl
            exact (List.nodup_cons.mp (show (e :: qa).Nodup from u3.nodup)).1 he
          have hold3 : h3.at? a = some (.node old) := by rw [k3 a (by simp)]; exact hold
          refine ⟨h3.set a none, old.attrs, qa, ?_, u4.perm (.refl _) (by simp), ?_⟩
          · simp only [HVar.unseta, ha, Heap.node_ok hold, Res.ok_bind, hold', if_neg hlt, if_pos heq, b1,
              Heap.freeNode, Heap.node_ok hold3, Res.pure_def]
          · rw [Var.unsetaList, if_neg hlt, if_pos heq]
            exact hla.congr fun e he => by rw [h3.set_other _ (hda e he), k3 e (by simp [he])]
        · have hnp : (qa ++ (a :: pa)).Nodup := (List.Perm.nodup_iff (by perms)).mp hn
          obtain ⟨h3, y, q3, b1, b2, b3⟩ := ih hok hla (List.nodup_append.mp hnp).1 (d := d)
            (by simp at hd ⊢; omega)
          have u3 := u0.andThen hok b2 (s := a :: pa) (by perms)
          have k3 := b2.keep hok (s := a :: pa) (dis_of_nodup hnp) (by
            intro e he
            rcases List.mem_cons.mp he with rfl | he
            · rw [hold]; exact fun z => by cases z
            · exact hca.cell.live e he)
          have hca3 := hca.congr fun e he => k3 e (by simp [he])
          have hold3 : h3.at? a = some (.node old) := by rw [k3 a (by simp)]; exact hold
          have s4 := upd_set b2.ok (a := a) (by rw [hold3]; exact fun z => by cases z)
            (.node { old with attrs := y })
          have u4 := u3.andThen hok s4 (s := pa ++ q3) (by perms)
          have hda : ∀ e ∈ pa ++ q3, e ∉ [a] := by
            have : ([a] ++ (pa ++ q3)).Nodup := (List.Perm.nodup_iff (by perms)).mp u3.nodup
            exact dis_of_nodup this
          have k4 := s4.keep b2.ok (s := pa ++ q3) hda
            (fun e he => (List.mem_append.mp he).elim (hca3.cell.live e) (b3.live e))
          refine ⟨h3.set a (some (.node { old with attrs := y })), some a, a :: (pa ++ q3), ?_,
            u4.perm (.refl _) (by perms), ?_⟩
          · simp only [HVar.unseta, ha, Heap.node_ok hold, Res.ok_bind, hold', if_neg hlt, if_neg heq, b1,
              Res.pure_def]
            rw [← ha]
          · rw [Var.unsetaList, if_neg hlt, if_neg heq]
            refine .cons (Heap.set_same ..) ?_ (b3.congr fun e he => k4 e (by simp [he]))
            have := hca3.congr fun e he => k4 e (by simp [he])
            exact ⟨this.info, this.isset, this.cell⟩

/-! ## Setters -/

/-- No exception. -/
def NoErr {α : Type} (r : Res α) : Prop := ∀ e, r ≠ .err e

theorem NoErr.ok {α : Type} (a : α) : NoErr (.ok a) := fun _ h => by cases h

theorem NoErr.ub {α : Type} : NoErr (.ub : Res α) := fun _ h => by cases h

theorem NoErr.bind {α β : Type} {r : Res α} {f : α → Res β} (hr : NoErr r) (hf : ∀ a, NoErr (f a)) :
    NoErr (r >>= f) := by
  cases r with
  | ok a => exact hf a
  | err e => exact absurd rfl (hr e)
  | ub => exact .ub

theorem NoErr.memRead (m : Mem) (n : Nat) : NoErr (memRead m n) := by
  unfold Wreport.memRead
  split
  · exact .ok _
  · exact .ub

theorem NoErr.memWrite (m w : Mem) : NoErr (memWrite m w) := by
  unfold Wreport.memWrite
  split
  · exact .ok _
  · exact .ub

theorem NoErr.strncpy (m : Mem) (n : Nat) : NoErr (strncpy m n) := by
  induction n generalizing m with
  | zero => unfold Wreport.strncpy; exact .ok _
  | succ n ih =>
    rcases m with _ | ⟨_ | b, m⟩
    · exact .ub
    · exact .ub
    · unfold Wreport.strncpy
      split
      · exact .ok _
      · exact (ih m).bind fun s => .ok _

theorem NoErr.maskLast (info : Varinfo) (m : Mem) : NoErr (Var.maskLast info m) := by
  unfold Var.maskLast
  split
  · exact .ok _
  · split
    · exact .ub
    · split
      · exact .ok _
      · exact .ub

theorem NoErr.allocate (c : VarCore) : NoErr c.allocate := by
  unfold VarCore.allocate
  split
  · exact .ok _
  · split
    · exact .ok _
    · exact .ub

/-- A value stored in the buffer of a text. -/
theorem stored {h : Heap} (hok : h.Ok) {v : HVar} {V : Var} {p : List Nat} (hc : CoreRep h v V.toVarCore p)
    (ht : isText v.info = true) {f : Mem → Res Mem} (hf : ∀ m, NoErr (f m))
    {r : Var × Res Unit} (hr : r = V.ofRes (do
      let m ← V.allocate
      let m' ← f m
      return V.putMem m')) (hub : r.2 ≠ .ub) :
    ∃ h' v' p', HVar.done (v.store h f) = .ok (h', v', r.2) ∧ Upd h h' p p' ∧
      CoreRep h' v' r.1.toVarCore p' ∧ v'.attrs = v.attrs ∧ r.1.attrs = V.attrs := by
  cases ha : V.allocate with
  | err e => exact absurd ha (NoErr.allocate _ e)
  | ub =>
    rw [ha] at hr
    subst hr
    exact absurd rfl hub
  | ok m =>
    cases hm : f m with
    | err e => exact absurd hm (hf m e)
    | ub =>
      simp only [ha, Res.ok_bind, hm, Res.ub_bind] at hr
      subst hr
      exact absurd rfl hub
    | ok m' =>
      simp only [ha, Res.ok_bind, hm, Res.pure_def] at hr
      subst hr
      obtain ⟨h', v', p', a1, a2, a3, a4, a5⟩ := store_ok hok hc ht ha hm
      refine ⟨h', v', p', ?_, a2, ?_, a4, rfl⟩
      · simp only [HVar.done, a1, Res.ok_bind, Res.pure_def, Var.ofRes]
      · exact ⟨a3.info, a3.isset, a3.cell⟩

/-- What a setter does to a variable. -/
def Sets (h : Heap) (v : HVar) (V : Var) (p : List Nat) (x : Res (Heap × HVar × Res Unit))
    (r : Var × Res Unit) : Prop :=
  ∃ h' v' p', x = .ok (h', v', r.2) ∧ Upd h h' p p' ∧ CoreRep h' v' r.1.toVarCore p' ∧
    v'.attrs = v.attrs ∧ r.1.attrs = V.attrs

theorem Sets.unchanged {h : Heap} (hok : h.Ok) {v : HVar} {V : Var} {p : List Nat}
    (hc : CoreRep h v V.toVarCore p) (hn : p.Nodup) (r : Res Unit) :
    Sets h v V p (.ok (h, v, r)) (V, r) :=
  ⟨h, v, p, rfl, .refl hok hn hc.cell.live, hc, rfl, rfl⟩

theorem Sets.unset {h : Heap} (hok : h.Ok) {v : HVar} {V : Var} {p : List Nat}
    (hc : CoreRep h v V.toVarCore p) (hn : p.Nodup) :
    Sets h v V p (.ok (h, { v with isset := false }, .ok ())) (V.unset, .ok ()) :=
  ⟨h, _, p, rfl, .refl hok hn hc.cell.live, ⟨hc.info, rfl, hc.cell⟩, rfl, rfl⟩

theorem assign_c_sets {h : Heap} (hok : h.Ok) {v : HVar} {V : Var} {p : List Nat}
    (hc : CoreRep h v V.toVarCore p) (ht : isText v.info = true) (val : Mem) (size : Nat)
    (hub : (V.assign_c_checked val size).2 ≠ .ub) :
    Sets h v V p (HVar.done (v.assign_c_checked h val size)) (V.assign_c_checked val size) := by
  refine stored hok hc ht (fun m => (NoErr.strncpy _ _).bind fun w => NoErr.memWrite _ _) ?_ hub
  rw [hc.info]
  simp only [Var.assign_c_checked, bind_assoc]

theorem assign_b_sets {h : Heap} (hok : h.Ok) {v : HVar} {V : Var} {p : List Nat}
    (hc : CoreRep h v V.toVarCore p) (ht : isText v.info = true) (val : Mem) (size : Nat)
    (hub : (V.assign_b_checked val size).2 ≠ .ub) :
    Sets h v V p (HVar.done (v.assign_b_checked h val size)) (V.assign_b_checked val size) := by
  refine stored hok hc ht (fun m => ?_) ?_ hub
  · split
    · exact (NoErr.memRead _ _).bind fun w => NoErr.memWrite _ _
    · exact (NoErr.memRead _ _).bind fun w => (NoErr.memWrite _ _).bind fun m => NoErr.maskLast _ _
  · rw [hc.info]
    unfold Var.assign_b_checked
    split <;> simp only [bind_assoc]

theorem NumSetter.sets {f : Var → Var × Res Unit} (hf : NumSetter f) {h : Heap} (hok : h.Ok) {v : HVar}
    {V : Var} {p : List Nat} (hc : CoreRep h v V.toVarCore p) (ht : isText v.info = false) :
    Sets h v V p (.ok (h, v.setNum f)) (f V) := by
  obtain ⟨i, hi, hi', rfl⟩ : ∃ i, v.cell = .word i ∧ V.cell = .word i ∧ p = [] := by
    have := hc.cell
    generalize v.cell = x at this ⊢
    generalize V.cell = y at this ⊢
    cases this with
    | word _ i => exact ⟨i, rfl, rfl, rfl⟩
    | null h => rw [ht] at h; cases h
    | buf h _ => rw [ht] at h; cases h
  have hV : f ⟨⟨v.info, v.isset, .word i⟩, []⟩ = ({ (f V).1 with attrs := [] }, (f V).2) := by
    rw [hc.info, hc.isset, ← hi']
    exact hf.over V []
  have e : v.setNum f = ({ v with
      isset := (f V).1.isset
      cell := match (f V).1.cell with
        | .word i => .word i
        | .mem _ => v.cell }, (f V).2) := by
    simp only [HVar.setNum, hi, hV]
    rfl
  rw [e]
  refine ⟨h, _, [], rfl, .refl hok (by simp) (by simp), ⟨?_, rfl, ?_⟩, rfl, hf.attrs V⟩
  · rw [hf.info]
    exact hc.info
  · rcases hf.cell V with h1 | ⟨j, h1⟩
    · rw [h1, hi']
      exact .word ht i
    · rw [h1]
      exact .word ht j

theorem isText_true {info : Varinfo} (h : info.type = .string ∨ info.type = .binary) : isText info = true := by
  unfold isText
  rcases h with h | h <;> rw [h]

theorem isText_false {info : Varinfo} (h : info.type = .integer ∨ info.type = .decimal) :
    isText info = false := by
  unfold isText
  rcases h with h | h <;> rw [h]

variable {E : Env} {O : Opts} {h : Heap} {v : HVar} {V : Var} {p : List Nat}

/-- Setters that only exist for numbers. -/
theorem number_sets (hok : h.Ok) (hc : CoreRep h v V.toVarCore p) (hn : p.Nodup)
    {f : Var → Var × Res Unit} (hf : NumSetter f)
    (ht : ∀ W, isText W.info = true → f W = (W, .err .type)) :
    Sets h v V p (HVar.setNumber f h v) (f V) := by
  cases htx : isText v.info with
  | false => exact hf.sets hok hc htx
  | true =>
    rw [ht V (by rw [← hc.info]; exact htx)]
    have : v.setNum f = (v, .err .type) := by
      unfold HVar.setNum
      simp only
      rw [ht _ (by exact htx)]
      rcases v with ⟨_, _, cell, _⟩
      cases cell <;> rfl
    rw [HVar.setNumber, this]
    exact .unchanged hok hc hn _

theorem seti_sets (hO : PlainHook O) (hok : h.Ok) (hc : CoreRep h v V.toVarCore p) (hn : p.Nodup) (x : Int) :
    Sets h v V p (HVar.setNumber (·.seti O x) h v) (V.seti O x) := by
  refine number_sets hok hc hn ⟨fun V l => ?_, fun V => ?_, fun V => ?_⟩ fun W hW => ?_
  · unfold Var.seti
    simp only
    split
    · rfl
    · rfl
    · exact (numSetter_assign_i hO x).over V l
    · exact (numSetter_assign_i hO x).over V l
  · unfold Var.seti
    split
    · rfl
    · rfl
    · exact (numSetter_assign_i hO x).info V
    · exact (numSetter_assign_i hO x).info V
  · unfold Var.seti
    split
    · exact .inl rfl
    · exact .inl rfl
    · exact (numSetter_assign_i hO x).cell V
    · exact (numSetter_assign_i hO x).cell V
  · revert hW
    unfold isText Var.seti
    cases W.info.type <;> simp

theorem setd_sets (hO : PlainHook O) (hok : h.Ok) (hc : CoreRep h v V.toVarCore p) (hn : p.Nodup) (x : Dbl) :
    Sets h v V p (HVar.setNumber (·.setd E O x) h v) (V.setd E O x) := by
  refine number_sets hok hc hn (numSetter_setd hO x) fun W hW => ?_
  revert hW
  unfold isText Var.setd
  cases W.info.type <;> simp

theorem sets_sets (hO : PlainHook O) (hok : h.Ok) (hc : CoreRep h v V.toVarCore p) (val : List Byte)
    (hub : (V.sets O val).2 ≠ .ub) : Sets h v V p (v.sets O h val) (V.sets O val) := by
  have hi : v.info.type = V.info.type := by rw [hc.info]
  unfold HVar.sets
  unfold Var.sets at hub ⊢
  rw [hi]
  cases hty : V.info.type <;> simp only [hty] at hub ⊢
  · exact (numSetter_text hO _).sets hok hc (isText_false (.inl (hi.trans hty)))
  · exact (numSetter_text hO _).sets hok hc (isText_false (.inr (hi.trans hty)))
  · exact assign_c_sets hok hc (isText_true (.inl (hi.trans hty))) _ _ hub
  · exact assign_b_sets hok hc (isText_true (.inr (hi.trans hty))) _ _ hub

theorem setc_sets (hO : PlainHook O) (hok : h.Ok) (hc : CoreRep h v V.toVarCore p) (hn : p.Nodup) (val : Mem)
    (hub : (V.setc O val).2 ≠ .ub) : Sets h v V p (v.setc O h val) (V.setc O val) := by
  have hi : v.info.type = V.info.type := by rw [hc.info]
  unfold HVar.setc
  unfold Var.setc at hub ⊢
  rw [hi, hc.info]
  cases hty : V.info.type <;> simp only [hty] at hub ⊢
  · cases hx : cstr val <;> simp only [hx, HVar.thrown, ne_eq, not_true_eq_false] at hub ⊢
    · exact (numSetter_text hO _).sets hok hc (isText_false (.inl (hi.trans hty)))
    · exact .unchanged hok hc hn _
  · cases hx : cstr val <;> simp only [hx, HVar.thrown, ne_eq, not_true_eq_false] at hub ⊢
    · exact (numSetter_text hO _).sets hok hc (isText_false (.inr (hi.trans hty)))
    · exact .unchanged hok hc hn _
  · exact assign_c_sets hok hc (isText_true (.inl (hi.trans hty))) _ _ hub
  · exact assign_b_sets hok hc (isText_true (.inr (hi.trans hty))) _ _ hub

theorem setc_truncate_sets (hok : h.Ok) (hc : CoreRep h v V.toVarCore p) (hn : p.Nodup) (val : Mem)
    (hub : (V.setc_truncate val).2 ≠ .ub) : Sets h v V p (v.setc_truncate h val) (V.setc_truncate val) := by
  have hi : v.info.type = V.info.type := by rw [hc.info]
  unfold HVar.setc_truncate
  unfold Var.setc_truncate at hub ⊢
  rw [hi, hc.info]
  cases hty : V.info.type <;> simp only [hty] at hub ⊢
  · exact .unchanged hok hc hn _
  · exact .unchanged hok hc hn _
  · cases hx : cstr val <;> simp only [hx, HVar.thrown, ne_eq, not_true_eq_false] at hub ⊢
    · exact assign_c_sets hok hc (isText_true (.inl (hi.trans hty))) _ _ hub
    · exact .unchanged hok hc hn _
  · exact assign_b_sets hok hc (isText_true (.inr (hi.trans hty))) _ _ hub

theorem setf_sets (hO : PlainHook O) (hok : h.Ok) (hc : CoreRep h v V.toVarCore p) (hn : p.Nodup)
    (val : Option (List Byte)) (hub : (V.setf E O val).2 ≠ .ub) :
    Sets h v V p (v.setf E O h val) (V.setf E O val) := by
  have hi : v.info.type = V.info.type := by rw [hc.info]
  rcases val with _ | _ | ⟨b, s⟩
  · exact .unset hok hc hn
  · exact .unset hok hc hn
  · unfold HVar.setf
    unfold Var.setf at hub ⊢
    simp only [hc.info] at hub ⊢
    cases hty : V.info.type <;> simp only [hty] at hub ⊢
    · exact (numSetter_setd hO _).sets hok hc (isText_false (.inl (hi.trans hty)))
    · exact (numSetter_setd hO _).sets hok hc (isText_false (.inr (hi.trans hty)))
    · exact assign_c_sets hok hc (isText_true (.inl (hi.trans hty))) _ _ hub
    · exact .unchanged hok hc hn _

theorem enqc_rep {s : HVar} {S : VarCore} {ps : List Nat} (hs : CoreRep h s S ps) (hu : S.enqc E ≠ .ub) :
    s.enqc E h = S.enqc E := by
  unfold HVar.enqc isText
  unfold VarCore.enqc at hu ⊢
  rw [hs.isset, hs.info]
  split
  · rfl
  · rename_i hset
    rw [if_neg hset] at hu
    have hnum : isText S.info = false → ∃ i, S.cell = .word i := by
      intro ht
      have := hs.cell
      rw [hs.info] at this
      generalize s.cell = x at this
      generalize S.cell = y at this ⊢
      cases this with
      | word _ i => exact ⟨i, rfl⟩
      | null h => exact ⟨0, rfl⟩
      | buf h _ => rw [ht] at h; cases h
    cases hty : S.info.type <;> simp only [hty, Bool.false_eq_true, if_false, if_true] at hu ⊢
    · obtain ⟨i, hi⟩ := hnum (isText_false (.inl hty))
      rw [word_ok hs hi, hi]
    · obtain ⟨i, hi⟩ := hnum (isText_false (.inr hty))
      rw [word_ok hs hi, hi]
    all_goals
      cases hp : S.ptr with
      | ok m => exact read_ok hs hp
      | err e => unfold VarCore.ptr at hp; split at hp <;> cases hp
      | ub => exact absurd hp hu

theorem enqd_rep {s : HVar} {S : VarCore} {ps : List Nat} (hs : CoreRep h s S ps) :
    s.enqd E = S.enqd E := by
  unfold HVar.enqd
  rw [hs.isset, hs.info]
  by_cases hset : S.isset = true
  · simp only [hset, Bool.not_true, Bool.false_eq_true, if_false]
    cases htx : isText S.info with
    | true =>
      have hty : S.info.type = .string ∨ S.info.type = .binary := by
        revert htx
        unfold isText
        cases S.info.type <;> simp
      unfold VarCore.enqd
      rcases hty with hty | hty <;> simp only [hset, hty, Bool.not_true, Bool.false_eq_true, if_false, if_true]
    | false =>
      obtain ⟨i, hi⟩ : ∃ i, S.cell = .word i := by
        have := hs.cell
        rw [hs.info] at this
        generalize s.cell = x at this
        generalize S.cell = y at this ⊢
        cases this with
        | word _ i => exact ⟨i, rfl⟩
        | null h => exact ⟨0, rfl⟩
        | buf h _ => rw [htx] at h; cases h
      rw [word_ok hs hi]
      simp only [Bool.false_eq_true, if_false]
      rw [← hi, ← hset]
  · replace hset : S.isset = false := by simpa using hset
    simp only [hset, Bool.not_false, if_true, VarCore.enqd]

theorem setval_sets (hO : PlainHook O) (hok : h.Ok) (hc : CoreRep h v V.toVarCore p) (hn : p.Nodup)
    {s : HVar} {S : VarCore} {ps : List Nat} (hs : CoreRep h s S ps)
    (hub : (V.setval E O S).2 ≠ .ub) : Sets h v V p (v.setval E O h s) (V.setval E O S) := by
  have hi : v.info.type = V.info.type := by rw [hc.info]
  unfold HVar.setval
  unfold Var.setval at hub ⊢
  rw [hs.isset]
  by_cases hset : S.isset = true
  · simp only [hset, Bool.not_true, Bool.false_eq_true, if_false] at hub ⊢
    rw [hi, hc.info]
    have num : isText v.info = false → ∀ r : Var × Res Unit, r = (match (do
          let d ← S.enqd E
          E.conv S.info.unit V.info.unit (.fin d)) with
        | .ok d => V.setd E O d
        | .err e => (V, .err e)
        | .ub => (V, .ub)) → r.2 ≠ .ub →
        Sets h v V p (HVar.thrown h v (do
          let d ← s.enqd E
          E.conv s.info.unit V.info.unit (.fin d)) fun d => .ok (h, v.setNum (·.setd E O d))) r := by
      intro ht r hr hub
      rw [enqd_rep hs, hs.info]
      cases hx : (do
          let d ← S.enqd E
          E.conv S.info.unit V.info.unit (.fin d) : Res Dbl) <;> simp only [hx] at hr <;> subst hr <;>
        simp only [HVar.thrown]
      · exact (numSetter_setd hO _).sets hok hc ht
      · exact .unchanged hok hc hn _
      · exact absurd rfl hub
    cases hty : V.info.type <;> simp only [hty] at hub ⊢
    · exact num (isText_false (.inl (hi.trans hty))) _ rfl hub
    · exact num (isText_false (.inr (hi.trans hty))) _ rfl hub
    · have hu : S.enqc E ≠ .ub := fun e => by rw [e] at hub; exact hub rfl
      rw [enqc_rep hs hu]
      cases hx : S.enqc E <;> simp only [hx, HVar.thrown, ne_eq, not_true_eq_false] at hub ⊢
      · exact assign_c_sets hok hc (isText_true (.inl (hi.trans hty))) _ _ hub
      · exact .unchanged hok hc hn _
    · have hu : S.enqc E ≠ .ub := fun e => by rw [e] at hub; exact hub rfl
      rw [enqc_rep hs hu]
      cases hx : S.enqc E <;> simp only [hx, HVar.thrown, ne_eq, not_true_eq_false] at hub ⊢
      · exact assign_b_sets hok hc (isText_true (.inr (hi.trans hty))) _ _ hub
      · exact .unchanged hok hc hn _
  · replace hset : S.isset = false := by simpa using hset
    simp only [hset, Bool.not_false, if_true]
    exact .unset hok hc hn

end Wreport.Own
