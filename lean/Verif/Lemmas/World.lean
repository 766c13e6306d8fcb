import Verif.Lemmas.Own

/-!
# Programs keep the ownership of heap objects
-/

namespace Wreport.Own

open Spec

theorem flatten_set {fps : List (List Nat)} {i : Nat} (hi : i < fps.length) (f' : List Nat) :
    (fps.set i f').flatten.Perm (f' ++ (fps.set i []).flatten) := by
  induction fps generalizing i with
  | nil => cases hi
  | cons x l ih =>
    cases i with
    | zero => simp
    | succ i =>
      simp only [List.set_cons_succ, List.flatten_cons]
      have := ih (i := i) (by simpa using hi)
      calc x ++ (l.set i f').flatten
          _ |>.Perm (x ++ (f' ++ (l.set i []).flatten)) := this.append_left x
          _ |>.Perm (f' ++ (x ++ (l.set i []).flatten)) := by perms

theorem flatten_get {fps : List (List Nat)} {i : Nat} (hi : i < fps.length) :
    fps.flatten.Perm (fps[i]?.getD [] ++ (fps.set i []).flatten) := by
  have h : fps.set i (fps[i]?.getD []) = fps := by
    rw [List.getElem?_eq_getElem hi, Option.getD_some]
    exact List.set_getElem_self hi
  have := flatten_set hi (fps[i]?.getD [])
  rwa [h] at this

/-- The state of a program, with the objects that each variable owns. -/
structure Inv (w : World) (W : List (Option Var)) (fps : List (List Nat)) : Prop where
  ok : w.1.Ok
  len : w.2.length = W.length
  flen : fps.length = W.length
  rep : ∀ k : Nat, SlotRep w.1 w.2[k]?.join W[k]?.join (fps[k]?.getD [])
  nodup : fps.flatten.Nodup
  live : ∀ a, w.1.at? a ≠ none ↔ a ∈ fps.flatten

theorem SlotRep.congr {h h' : Heap} {o : Option HVar} {O : Option Var} {f : List Nat} (hr : SlotRep h o O f)
    (he : ∀ a ∈ f, h'.at? a = h.at? a) : SlotRep h' o O f := by
  cases hr with
  | absent => exact .absent
  | present hr => exact .present ⟨hr.core.congr fun a ha => he a (by simp [ha]),
      hr.chain.congr fun a ha => he a (by simp [ha])⟩

theorem SlotRep.live {h : Heap} {o : Option HVar} {O : Option Var} {f : List Nat} (hr : SlotRep h o O f) :
    ∀ a ∈ f, h.at? a ≠ none := by
  cases hr with
  | absent => intro a ha; cases ha
  | present hr => exact fun a ha => (List.mem_append.mp ha).elim (hr.core.cell.live a) (hr.chain.live a)

theorem slot_get {α : Type} {l : List (Option α)} {i : Nat} {x : α} (h : l[i]?.join = some x) :
    i < l.length := by
  by_contra hc
  rw [List.getElem?_eq_none (by omega)] at h
  cases h

theorem free_get {α : Type} {l : List (Option α)} {i : Nat} (h : l[i]? = some none) : i < l.length :=
  (List.getElem?_eq_some_iff.mp h).1

namespace Inv

variable {w : World} {W : List (Option Var)} {fps : List (List Nat)}

theorem get (I : Inv w W fps) {i : Nat} {V : Var} (hV : W[i]?.join = some V) :
    ∃ v p q, w.2[i]?.join = some v ∧ VarRep w.1 v V p q ∧ fps[i]?.getD [] = p ++ q ∧ i < fps.length := by
  have h := I.rep i
  rw [hV] at h
  have hi := slot_get hV
  generalize w.2[i]?.join = o at h ⊢
  generalize fps[i]?.getD [] = f at h ⊢
  cases h with
  | present hr => exact ⟨_, _, _, rfl, hr, rfl, by rw [I.flen]; exact hi⟩

theorem free (I : Inv w W fps) {i : Nat} (hV : W[i]? = some none) :
    w.2[i]? = some none ∧ fps[i]?.getD [] = [] ∧ i < fps.length := by
  have h := I.rep i
  have hi := free_get hV
  rw [hV] at h
  have hw : i < w.2.length := by rw [I.len]; exact hi
  rw [List.getElem?_eq_getElem hw] at h ⊢
  generalize fps[i]?.getD [] = f at h ⊢
  generalize hx : w.2[i] = x at h ⊢
  simp only [Option.join_some] at h
  cases h with
  | absent => exact ⟨rfl, rfl, by rw [I.flen]; exact hi⟩

/-- There are no more owned objects than addresses. -/
theorem small (I : Inv w W fps) : fps.flatten.length ≤ w.1.next := by
  have hs : fps.flatten ⊆ List.range w.1.next := fun a ha =>
    List.mem_range.mpr (I.ok a ((I.live a).mpr ha))
  simpa using (I.nodup.subperm hs).length_le

/-- Effects of an operation on the objects that it does and does not own. -/
theorem effect (I : Inv w W fps) {f f' r : List Nat} {fps' : List (List Nat)} {h' : Heap}
    (h1 : fps.flatten.Perm (f ++ r)) (h2 : fps'.flatten.Perm (f' ++ r)) (u : Upd w.1 h' f f')
    (hl : ∀ a ∈ f', h'.at? a ≠ none) :
    fps'.flatten.Nodup ∧ (∀ a, h'.at? a ≠ none ↔ a ∈ fps'.flatten) ∧ ∀ a ∈ r, h'.at? a = w.1.at? a := by
  have u0 : Upd w.1 w.1 fps.flatten fps.flatten := .refl I.ok I.nodup fun a ha => (I.live a).mpr ha
  have u1 := u0.andThen I.ok u h1
  have hnd : (f ++ r).Nodup := h1.nodup_iff.mp I.nodup
  have hrl : ∀ a ∈ r, w.1.at? a ≠ none := fun a ha =>
    (I.live a).mpr (h1.mem_iff.mpr (List.mem_append_right _ ha))
  have hk := u.keep I.ok (dis_of_nodup hnd) hrl
  refine ⟨h2.nodup_iff.mpr u1.nodup, fun a => ⟨fun ha => ?_, fun ha => ?_⟩, hk⟩
  · by_contra hc
    have hc' : a ∉ f' ++ r := fun x => hc (h2.mem_iff.mpr x)
    by_cases hm : a ∈ fps.flatten
    · exact ha (u1.gone a hm hc')
    · rw [u1.frame a hm hc'] at ha
      exact hm ((I.live a).mp ha)
  · rcases List.mem_append.mp (h2.mem_iff.mp ha) with ha | ha
    · exact hl a ha
    · rw [hk a ha]
      exact hrl a ha

theorem rest_mem {i k : Nat} (hne : k ≠ i) {a : Nat} (ha : a ∈ fps[k]?.getD []) :
    a ∈ (fps.set i []).flatten := by
  by_cases hk : k < fps.length
  · rw [List.getElem?_eq_getElem hk, Option.getD_some] at ha
    refine List.mem_flatten.mpr ⟨fps[k], ?_, ha⟩
    have : (fps.set i [])[k]? = some fps[k] := by
      rw [List.getElem?_set_ne (Ne.symm hne), List.getElem?_eq_getElem hk]
    exact List.mem_of_getElem? this
  · rw [List.getElem?_eq_none (by omega)] at ha
    cases ha

theorem put1 (I : Inv w W fps) {i : Nat} (hi : i < fps.length) {f' : List Nat} {h' : Heap}
    {o : Option HVar} {O : Option Var} (u : Upd w.1 h' (fps[i]?.getD []) f') (hr : SlotRep h' o O f') :
    Inv (h', w.2.set i o) (W.set i O) (fps.set i f') := by
  obtain ⟨e1, e2, e3⟩ := I.effect (flatten_get hi) (flatten_set hi f') u hr.live
  refine ⟨u.ok, by simpa using I.len, by simpa using I.flen, fun k => ?_, e1, e2⟩
  by_cases hk : k = i
  · subst hk
    rw [List.getElem?_set_self (by rw [I.len, ← I.flen]; exact hi),
      List.getElem?_set_self (by rw [← I.flen]; exact hi), List.getElem?_set_self hi]
    exact hr
  · rw [List.getElem?_set_ne (Ne.symm hk), List.getElem?_set_ne (Ne.symm hk),
      List.getElem?_set_ne (Ne.symm hk)]
    exact (I.rep k).congr fun a ha => e3 a (rest_mem hk ha)

theorem two {i j : Nat} (hi : i < fps.length) (hj : j < fps.length) (hij : i ≠ j) :
    fps.flatten.Perm ((fps[i]?.getD [] ++ fps[j]?.getD []) ++ ((fps.set i []).set j []).flatten) := by
  have h1 := flatten_get hi
  have h2 := flatten_get (fps := fps.set i []) (i := j) (by simpa using hj)
  rw [List.getElem?_set_ne hij] at h2
  refine h1.trans ((h2.append_left _).trans ?_)
  rw [List.append_assoc]

theorem put2 (I : Inv w W fps) {i j : Nat} (hi : i < fps.length) (hj : j < fps.length) (hij : i ≠ j)
    {fi fj : List Nat} {h' : Heap} {o o' : Option HVar} {O O' : Option Var}
    (u : Upd w.1 h' (fps[i]?.getD [] ++ fps[j]?.getD []) (fi ++ fj)) (hr : SlotRep h' o O fi)
    (hr' : SlotRep h' o' O' fj) :
    Inv (h', (w.2.set i o).set j o') ((W.set i O).set j O') ((fps.set i fi).set j fj) := by
  have hp : ((fps.set i fi).set j fj).flatten.Perm ((fi ++ fj) ++ ((fps.set i []).set j []).flatten) := by
    have h1 := flatten_set (fps := fps.set i fi) (i := j) (by simpa using hj) fj
    have h2 := flatten_set (fps := fps.set j []) (i := i) (by simpa using hi) fi
    rw [List.set_comm _ _ hij] at h1
    rw [List.set_comm _ _ hij.symm] at h1
    rw [List.set_comm _ _ hij.symm] at h2
    rw [List.set_comm _ _ hij.symm] at h2
    refine h1.trans ((h2.append_left _).trans ?_)
    perms
  obtain ⟨e1, e2, e3⟩ := I.effect (two hi hj hij) hp u
    (fun a ha => (List.mem_append.mp ha).elim (hr.live a) (hr'.live a))
  have hW : fps.length = W.length := I.flen
  have hw : fps.length = w.2.length := by rw [I.len, I.flen]
  refine ⟨u.ok, by simpa using I.len, by simpa using I.flen, fun k => ?_, e1, e2⟩
  by_cases hkj : k = j
  · subst hkj
    rw [List.getElem?_set_self (by simpa [← hw] using hj),
      List.getElem?_set_self (by simpa [← hW] using hj), List.getElem?_set_self (by simpa using hj)]
    exact hr'
  · rw [List.getElem?_set_ne (Ne.symm hkj), List.getElem?_set_ne (Ne.symm hkj),
      List.getElem?_set_ne (Ne.symm hkj)]
    by_cases hki : k = i
    · subst hki
      rw [List.getElem?_set_self (by rw [← hw]; exact hi), List.getElem?_set_self (by rw [← hW]; exact hi),
        List.getElem?_set_self hi]
      exact hr
    · rw [List.getElem?_set_ne (Ne.symm hki), List.getElem?_set_ne (Ne.symm hki),
        List.getElem?_set_ne (Ne.symm hki)]
      refine (I.rep k).congr fun a ha => e3 a ?_
      refine rest_mem (fps := fps.set i []) hkj ?_
      rw [List.getElem?_set_ne (Ne.symm hki)]
      exact ha

end Inv

theorem ChainRep.short {h : Heap} {x : Option Nat} {l : List VarCore} {fp : List Nat}
    (hr : ChainRep h x l fp) : l.length ≤ fp.length := by
  induction hr with
  | nil => simp
  | cons ha hc hl ih => simp; omega

theorem rep_word {h : Heap} {v : HVar} {c : VarCore} {p : List Nat} (hc : CoreRep h v c p) {i : Int}
    (hp : c.cell = .word i) : p = [] := by
  obtain ⟨-, -, hcell⟩ := hc
  generalize c.cell = y at hp hcell
  generalize v.cell = x at hcell
  cases hcell with
  | word _ j => rfl
  | null _ => rfl
  | buf _ ha => cases hp

namespace Inv

variable {w : World} {W W' : List (Option Var)} {fps : List (List Nat)} {E : Env} {O : Opts}

theorem short (I : Inv w W fps) {i : Nat} {v : HVar} {V : Var} {p q : List Nat} (hr : VarRep w.1 v V p q)
    (hf : fps[i]?.getD [] = p ++ q) (hi : i < fps.length) : V.attrs.length ≤ w.1.next := by
  have hp := flatten_get hi
  rw [hf] at hp
  have := hr.chain.short
  have := hp.length_eq
  have := I.small
  simp only [List.length_append] at *
  omega

theorem get_ok (I : Inv w W fps) {i : Nat} {V : Var} (hV : W[i]?.join = some V) :
    ∃ v p q, w.get i = .ok v ∧ VarRep w.1 v V p q ∧ fps[i]?.getD [] = p ++ q ∧ i < fps.length ∧
      (p ++ q).Nodup ∧ V.attrs.length < w.depth := by
  obtain ⟨v, p, q, h1, h2, h3, h4⟩ := I.get hV
  have hp := flatten_get h4
  rw [h3] at hp
  refine ⟨v, p, q, by simp only [World.get, h1], h2, h3, h4,
    (List.nodup_append.mp (hp.nodup_iff.mp I.nodup)).1, ?_⟩
  have := I.short h2 h3 h4
  unfold World.depth
  omega

theorem set1 (I : Inv w W fps) {i : Nat} {v : HVar} {V : Var} {p q : List Nat}
    (hr : VarRep w.1 v V p q) (hf : fps[i]?.getD [] = p ++ q) (hi : i < fps.length) {r : Var × Res Unit}
    {x : Res (Heap × HVar × Res Unit)} (hs : Sets w.1 v V p x r) (hub : r.2 ≠ .ub) :
    ∃ w' fps', w.set i x = .ok w' ∧ Inv w' (W.set i (some r.1)) fps' := by
  obtain ⟨h', v', p', rfl, u, hc, h3, h4⟩ := hs
  have hn : (p ++ q).Nodup := by
    have hp := flatten_get hi
    rw [hf] at hp
    exact (List.nodup_append.mp (hp.nodup_iff.mp I.nodup)).1
  have u0 : Upd w.1 w.1 (p ++ q) (p ++ q) := .refl I.ok hn fun a ha =>
    (List.mem_append.mp ha).elim (hr.core.cell.live a) (hr.chain.live a)
  have u1 := u0.andThen I.ok u (.refl _)
  have hq := hr.chain.congr (u.keep I.ok (dis_of_nodup hn) hr.chain.live)
  refine ⟨(h', w.2.set i (some v')), fps.set i (p' ++ q), ?_, I.put1 hi (by rw [hf]; exact u1) (.present ⟨hc, ?_⟩)⟩
  · simp only [World.set, Res.ok_bind, World.put]
  · rw [h3, h4]
    exact hq

theorem values_set {i : Nat} {r : Var × Res Unit} (h : Values.set W i r = some W') :
    r.2 ≠ .ub ∧ W' = W.set i (some r.1) := by
  unfold Values.set at h
  split at h
  · cases h
  · rename_i hc
    cases h
    exact ⟨hc, rfl⟩

/-- Changes of the attributes. -/
theorem chain1 (I : Inv w W fps) {i : Nat} {v : HVar} {V : Var} {p q : List Nat}
    (hr : VarRep w.1 v V p q) (hf : fps[i]?.getD [] = p ++ q) (hi : i < fps.length) {h' : Heap}
    {y : Option Nat} {q' : List Nat} {L : List VarCore} (u : Upd w.1 h' q q') (hc : ChainRep h' y L q') :
    ∃ fps', Inv (w.put i (h', { v with attrs := y })) (W.set i (some { V with attrs := L })) fps' := by
  have hn : (p ++ q).Nodup := by
    have hp := flatten_get hi
    rw [hf] at hp
    exact (List.nodup_append.mp (hp.nodup_iff.mp I.nodup)).1
  have u0 : Upd w.1 w.1 (p ++ q) (q ++ p) := (Upd.refl I.ok hn fun a ha =>
    (List.mem_append.mp ha).elim (hr.core.cell.live a) (hr.chain.live a)).perm (.refl _) (by perms)
  have u1 := (u0.andThen I.ok u (.refl _)).perm (.refl _) (show (q' ++ p).Perm (p ++ q') by perms)
  have hcore := hr.core.congr (u.keep I.ok (dis_of_nodup u0.nodup) hr.core.cell.live)
  exact ⟨fps.set i (p ++ q'), I.put1 hi (by rw [hf]; exact u1)
    (.present ⟨⟨hcore.info, hcore.isset, hcore.cell⟩, hc⟩)⟩

theorem two_nodup (I : Inv w W fps) {i j : Nat} (hi : i < fps.length) (hj : j < fps.length) (hij : i ≠ j) :
    (fps[i]?.getD [] ++ fps[j]?.getD []).Nodup ∧
      (fps[i]?.getD []).length + (fps[j]?.getD []).length ≤ w.1.next := by
  have hp := two hi hj hij
  refine ⟨(List.nodup_append.mp (hp.nodup_iff.mp I.nodup)).1, ?_⟩
  have := hp.length_eq
  have := I.small
  simp only [List.length_append] at *
  omega

end Inv

theorem defined_ok {α : Type} {r : Res α} {a : α} (h : Values.defined r = some a) : r = .ok a := by
  cases r <;> simp only [Values.defined] at h
  · cases h; rfl
  · cases h
  · cases h

theorem copyAttrs_noerr (l : List VarCore) : NoErr (Var.copyAttrs l) := by
  induction l with
  | nil => exact .ok _
  | cons a l ih =>
    unfold Var.copyAttrs
    refine NoErr.bind ?_ fun c => ih.bind fun l => .ok _
    unfold Var.copy_value
    split
    · exact .ok _
    · have hp : NoErr a.ptr := by
        unfold VarCore.ptr
        split
        · exact .ok _
        · exact .ub
      split
      · exact (NoErr.allocate _).bind fun m => hp.bind fun p => (NoErr.memRead _ _).bind fun w =>
          (NoErr.memWrite _ _).bind fun m => .ok _
      · exact (NoErr.allocate _).bind fun m => hp.bind fun p => (NoErr.memRead _ _).bind fun w =>
          (NoErr.memWrite _ _).bind fun m => .ok _
      · split
        · exact .ok _
        · exact .ub
      · split
        · exact .ok _
        · exact .ub

theorem assign_c_noerr (V : Var) (m : Mem) (n : Nat) : NoErr (V.assign_c_checked m n).2 := by
  intro e h
  unfold Var.assign_c_checked at h
  generalize hr : (do
    let m' ← V.allocate
    let w ← strncpy m (if n < V.info.len then n else V.info.len)
    let m' ← memWrite m' (toMem w ++ [some 0])
    return V.putMem m' : Res Var) = r at h
  have : NoErr r := by
    rw [← hr]
    exact (NoErr.allocate _).bind fun m => (NoErr.strncpy _ _).bind fun w => (NoErr.memWrite _ _).bind fun m => .ok _
  cases r with
  | ok v => cases h
  | err x => exact this x rfl
  | ub => cases h

theorem assign_b_noerr (V : Var) (m : Mem) (n : Nat) : NoErr (V.assign_b_checked m n).2 := by
  intro e h
  unfold Var.assign_b_checked at h
  generalize hr : (do
    let m' ← V.allocate
    if n < V.info.len then do
      let w ← memRead m n
      let m' ← memWrite m' (w ++ List.replicate (V.info.len - n) (some 0))
      return V.putMem m'
    else do
      let w ← memRead m V.info.len
      let m' ← memWrite m' w
      let m' ← Var.maskLast V.info m'
      return V.putMem m' : Res Var) = r at h
  have : NoErr r := by
    rw [← hr]
    refine (NoErr.allocate _).bind fun m => ?_
    split
    · exact (NoErr.memRead _ _).bind fun w => (NoErr.memWrite _ _).bind fun m => .ok _
    · exact (NoErr.memRead _ _).bind fun w => (NoErr.memWrite _ _).bind fun m =>
        (NoErr.maskLast _ _).bind fun m => .ok _
  cases r with
  | ok v => cases h
  | err x => exact this x rfl
  | ub => cases h

/-- A constructor that throws an exception has not allocated anything. -/
theorem setval_err_cell {E : Env} {O : Opts} (hO : PlainHook O) {info : Varinfo} {S : VarCore} {e : Err}
    (h : ((Var.new info).setval E O S).2 = .err e) :
    ∃ i, ((Var.new info).setval E O S).1.cell = .word i := by
  have num : ∀ r : Res Dbl, ∃ i, (match r with
      | .ok d => (Var.new info).setd E O d
      | .err e => (Var.new info, .err e)
      | .ub => (Var.new info, .ub) : Var × Res Unit).1.cell = .word i := by
    intro r
    cases r with
    | ok d =>
      rcases (numSetter_setd (E := E) hO d).cell (Var.new info) with h | h
      · exact ⟨0, h⟩
      · exact h
    | err e => exact ⟨0, rfl⟩
    | ub => exact ⟨0, rfl⟩
  unfold Var.setval at h ⊢
  split at h
  · cases h
  · rename_i hset
    simp only [hset]
    simp only [Bool.false_eq_true, if_false]
    cases hty : (Var.new info).info.type <;> simp only [hty] at h ⊢
    · exact num _
    · exact num _
    · cases hq : S.enqc E <;> simp only [hq] at h ⊢
      · exact absurd h (assign_c_noerr _ _ _ e)
      · exact ⟨0, rfl⟩
      · exact ⟨0, rfl⟩
    · cases hq : S.enqc E <;> simp only [hq] at h ⊢
      · exact absurd h (assign_b_noerr _ _ _ e)
      · exact ⟨0, rfl⟩
      · exact ⟨0, rfl⟩

theorem step_ok {E : Env} {O : Opts} (hO : PlainHook O) {w : World} {W W' : List (Option Var)}
    {fps : List (List Nat)} (I : Inv w W fps) {op : Op} (h : Values.step E O W op = some W') :
    ∃ w' fps', w.step E O op = .ok w' ∧ Inv w' W' fps' := by
  cases op with
  | make i info =>
    simp only [Values.step] at h
    split at h
    · rename_i hf
      cases h
      obtain ⟨f1, f2, f3⟩ := I.free hf
      refine ⟨_, fps.set i [], by simp only [World.step, World.free, f1, if_true, Res.ok_bind, Res.pure_def]; rfl,
        I.put1 f3 (by rw [f2]; exact .refl I.ok (by simp) (by simp)) (.present (p := []) (q := []) ⟨new_rep _ rfl, .nil⟩)⟩
    · cases h
  | copy i j =>
    simp only [Values.step] at h
    split at h
    · cases h
    rename_i hf
    replace hf := not_not.mp hf
    simp only [Option.bind_eq_bind, Option.bind_eq_some_iff, Option.pure_def, Option.some.injEq] at h
    obtain ⟨S, hS, C, hC, rfl⟩ := h
    obtain ⟨s, p, q, g1, g2, g3, g4, g5, g6⟩ := I.get_ok hS
    obtain ⟨f1, f2, f3⟩ := I.free hf
    replace hC := defined_ok hC
    simp only [Var.copy, Var.setattrs, Res.bind_eq_ok, Res.pure_def, Res.ok.injEq] at hC
    obtain ⟨V, hV, L, hL, rfl⟩ := hC
    obtain ⟨h', v', p', q', a1, a2, a3, a4, a5⟩ := copy_ok _ I.ok g2.core g2.chain hV hL g6
    refine ⟨_, fps.set i (p' ++ q'), ?_, I.put1 f3 (by rw [f2]; exact a2) (.present ⟨⟨a3.info, a3.isset, a3.cell⟩, a4⟩)⟩
    simp only [World.step, World.free, f1, if_true, Res.ok_bind, g1, a1, Res.pure_def]
    rfl
  | newFrom i info j =>
    simp only [Values.step] at h
    split at h
    · cases h
    rename_i hf
    replace hf := not_not.mp hf
    simp only [Option.bind_eq_bind, Option.bind_eq_some_iff] at h
    obtain ⟨S, hS, h⟩ := h
    obtain ⟨s, p, q, g1, g2, g3, g4, g5, g6⟩ := I.get_ok hS
    obtain ⟨f1, f2, f3⟩ := I.free hf
    have hub : ((Var.new info).setval E O S.toVarCore).2 ≠ .ub := by
      intro e
      rw [Var.newFrom, e] at h
      cases h
    obtain ⟨h', v', p', a1, a2, a3, a4, a5⟩ :=
      setval_sets hO I.ok (new_rep w.1 (rfl : info = info)) (by simp) g2.core hub
    cases hr : ((Var.new info).setval E O S.toVarCore).2 with
    | ub => exact absurd hr hub
    | err e =>
      rw [Var.newFrom, hr] at h
      simp only [Res.err_bind, Option.pure_def, Option.some.injEq] at h
      subst h
      obtain ⟨k, hk⟩ := setval_err_cell hO hr
      have hp : p' = [] := rep_word a3 hk
      subst hp
      have hat : h'.at? = w.1.at? := funext fun a => a2.frame a (by simp) (by simp)
      refine ⟨(h', w.2), fps, ?_, ⟨a2.ok, I.len, I.flen, fun k => ?_, I.nodup, fun a => ?_⟩⟩
      · simp only [World.step, World.free, f1, if_true, Res.ok_bind, g1, HVar.newFrom, a1, hr]
      · exact (I.rep k).congr fun a _ => by rw [hat]
      · show h'.at? a ≠ none ↔ _
        rw [hat]
        exact I.live a
    | ok x =>
      rw [Var.newFrom, hr] at h
      simp only [Res.ok_bind, Var.setattrs] at h
      have hs1 := g2.chain.congr (a2.keep I.ok (by simp) g2.chain.live)
      cases hL : Var.copyAttrs S.attrs with
      | ub => rw [hL] at h; cases h
      | err e => exact absurd hL (copyAttrs_noerr _ _)
      | ok L =>
        rw [hL] at h
        simp only [Res.ok_bind, Res.pure_def, Option.pure_def, Option.some.injEq] at h
        subst h
        have hv0 : ChainRep h' v'.attrs [] [] := by rw [a4]; exact .nil
        obtain ⟨h2, y, q2, b1, b2, b3⟩ := setattrs_ok a2.ok hv0 hs1 hL
          (by simpa using (List.nodup_append.mp g5).2.1) (d := w.depth) (by simp) (by omega)
        have u2 := a2.andThen I.ok b2 (s := p') (by simp)
        have a3' := a3.congr (b2.keep a2.ok (by simp) a3.cell.live)
        refine ⟨(h2, w.2.set i (some { v' with attrs := y })), fps.set i (p' ++ q2), ?_, I.put1 f3 (by rw [f2]; exact u2.perm (.refl _) (by perms))
          (.present ⟨⟨a3'.info, a3'.isset, a3'.cell⟩, b3⟩)⟩
        simp only [World.step, World.free, f1, if_true, Res.ok_bind, g1, HVar.newFrom, a1, hr, b1, Res.pure_def]
        rfl
  | move i j =>
    simp only [Values.step] at h
    split at h
    · cases h
    rename_i hf
    replace hf := not_not.mp hf
    simp only [Option.bind_eq_bind, Option.bind_eq_some_iff, Option.pure_def, Option.some.injEq] at h
    obtain ⟨S, hS, rfl⟩ := h
    obtain ⟨s, p, q, g1, g2, g3, g4, g5, g6⟩ := I.get_ok hS
    obtain ⟨f1, f2, f3⟩ := I.free hf
    have hij : i ≠ j := by
      rintro rfl
      rw [hf] at hS
      cases hS
    obtain ⟨h', v', s', p1, q1, p2, q2, a1, a2, a3, a4⟩ := move_ok I.ok g2 g5
    refine ⟨_, (fps.set i (p1 ++ q1)).set j (p2 ++ q2), ?_,
      I.put2 f3 g4 hij (by rw [f2, g3]; exact a2) (.present a3) (.present a4)⟩
    simp only [World.step, World.free, f1, if_true, Res.ok_bind, g1, a1, Res.pure_def]
    rfl
  | assign i j =>
    simp only [Values.step, Option.bind_eq_bind, Option.bind_eq_some_iff] at h
    obtain ⟨V, hV, S, hS, h⟩ := h
    obtain ⟨v, p, q, g1, g2, g3, g4, g5, g6⟩ := I.get_ok hV
    obtain ⟨s, ps, qs, k1, k2, k3, k4, k5, k6⟩ := I.get_ok hS
    split at h
    · rename_i hij
      cases h
      exact ⟨w, fps, by simp only [World.step, g1, k1, Res.ok_bind, if_pos hij], I⟩
    rename_i hij
    split at h
    · cases h
    rename_i hal
    have ht : isText V.info = isText S.info := by
      by_contra hc
      exact hal (by simp [Values.alike, hc])
    replace hij : i ≠ j := hij
    obtain ⟨n1, n2⟩ := I.two_nodup g4 k4 hij
    rw [g3, k3] at n1 n2
    simp only [Option.bind_eq_some_iff, Option.pure_def, Option.some.injEq] at h
    obtain ⟨V', hV', rfl⟩ := h
    obtain ⟨h', v', p', q', a1, a2, a3⟩ := assign_ok I.ok g2 k2 ht (defined_ok hV') n1 g6.le k6.le
    refine ⟨_, fps.set i (p' ++ q'), ?_, I.put1 g4 (by rw [g3]; exact a2) (.present a3)⟩
    simp only [World.step, if_neg hij, Res.ok_bind, g1, k1, a1, Res.pure_def]
    rfl
  | moveAssign i j =>
    simp only [Values.step, Option.bind_eq_bind, Option.bind_eq_some_iff] at h
    obtain ⟨V, hV, S, hS, h⟩ := h
    obtain ⟨v, p, q, g1, g2, g3, g4, g5, g6⟩ := I.get_ok hV
    obtain ⟨s, ps, qs, k1, k2, k3, k4, k5, k6⟩ := I.get_ok hS
    split at h
    · rename_i hij
      cases h
      exact ⟨w, fps, by simp only [World.step, g1, k1, Res.ok_bind, if_pos hij], I⟩
    rename_i hij
    split at h
    · cases h
    rename_i hal
    have ht : isText V.info = isText S.info := by
      by_contra hc
      exact hal (by simp [Values.alike, hc])
    replace hij : i ≠ j := hij
    obtain ⟨n1, n2⟩ := I.two_nodup g4 k4 hij
    rw [g3, k3] at n1 n2
    simp only [Option.pure_def, Option.some.injEq] at h
    subst h
    obtain ⟨h', v', s', p1, q1, p2, q2, a1, a2, a3, a4⟩ := moveAssign_ok I.ok g2 k2 ht n1 g6.le
    refine ⟨_, (fps.set i (p1 ++ q1)).set j (p2 ++ q2), ?_,
      I.put2 g4 k4 hij (by rw [g3, k3]; exact a2) (.present a3) (.present a4)⟩
    simp only [World.step, if_neg hij, Res.ok_bind, g1, k1, a1, Res.pure_def]
    rfl
  | seti i x =>
    simp only [Values.step, Option.bind_eq_bind, Option.bind_eq_some_iff] at h
    obtain ⟨V, hV, h⟩ := h
    obtain ⟨e1, rfl⟩ := Inv.values_set h
    obtain ⟨v, p, q, g1, g2, g3, g4, g5, g6⟩ := I.get_ok hV
    have hn := (List.nodup_append.mp g5).1
    obtain ⟨w', fps', a1, a2⟩ := I.set1 g2 g3 g4 (seti_sets hO I.ok g2.core hn x) e1
    exact ⟨w', fps', by simp only [World.step, g1, Res.ok_bind]; exact a1, a2⟩
  | setd i x =>
    simp only [Values.step, Option.bind_eq_bind, Option.bind_eq_some_iff] at h
    obtain ⟨V, hV, h⟩ := h
    obtain ⟨e1, rfl⟩ := Inv.values_set h
    obtain ⟨v, p, q, g1, g2, g3, g4, g5, g6⟩ := I.get_ok hV
    have hn := (List.nodup_append.mp g5).1
    obtain ⟨w', fps', a1, a2⟩ := I.set1 g2 g3 g4 (setd_sets hO I.ok g2.core hn x) e1
    exact ⟨w', fps', by simp only [World.step, g1, Res.ok_bind]; exact a1, a2⟩
  | sets i x =>
    simp only [Values.step, Option.bind_eq_bind, Option.bind_eq_some_iff] at h
    obtain ⟨V, hV, h⟩ := h
    obtain ⟨e1, rfl⟩ := Inv.values_set h
    obtain ⟨v, p, q, g1, g2, g3, g4, g5, g6⟩ := I.get_ok hV
    have hn := (List.nodup_append.mp g5).1
    obtain ⟨w', fps', a1, a2⟩ := I.set1 g2 g3 g4 (sets_sets hO I.ok g2.core x e1) e1
    exact ⟨w', fps', by simp only [World.step, g1, Res.ok_bind]; exact a1, a2⟩
  | setc i x =>
    simp only [Values.step, Option.bind_eq_bind, Option.bind_eq_some_iff] at h
    obtain ⟨V, hV, h⟩ := h
    obtain ⟨e1, rfl⟩ := Inv.values_set h
    obtain ⟨v, p, q, g1, g2, g3, g4, g5, g6⟩ := I.get_ok hV
    have hn := (List.nodup_append.mp g5).1
    obtain ⟨w', fps', a1, a2⟩ := I.set1 g2 g3 g4 (setc_sets hO I.ok g2.core hn x e1) e1
    exact ⟨w', fps', by simp only [World.step, g1, Res.ok_bind]; exact a1, a2⟩
  | setcTruncate i x =>
    simp only [Values.step, Option.bind_eq_bind, Option.bind_eq_some_iff] at h
    obtain ⟨V, hV, h⟩ := h
    obtain ⟨e1, rfl⟩ := Inv.values_set h
    obtain ⟨v, p, q, g1, g2, g3, g4, g5, g6⟩ := I.get_ok hV
    have hn := (List.nodup_append.mp g5).1
    obtain ⟨w', fps', a1, a2⟩ := I.set1 g2 g3 g4 (setc_truncate_sets I.ok g2.core hn x e1) e1
    exact ⟨w', fps', by simp only [World.step, g1, Res.ok_bind]; exact a1, a2⟩
  | setf i x =>
    simp only [Values.step, Option.bind_eq_bind, Option.bind_eq_some_iff] at h
    obtain ⟨V, hV, h⟩ := h
    obtain ⟨e1, rfl⟩ := Inv.values_set h
    obtain ⟨v, p, q, g1, g2, g3, g4, g5, g6⟩ := I.get_ok hV
    have hn := (List.nodup_append.mp g5).1
    obtain ⟨w', fps', a1, a2⟩ := I.set1 g2 g3 g4 (setf_sets hO I.ok g2.core hn x e1) e1
    exact ⟨w', fps', by simp only [World.step, g1, Res.ok_bind]; exact a1, a2⟩
  | unset i =>
    simp only [Values.step, Option.bind_eq_bind, Option.bind_eq_some_iff, Option.pure_def,
      Option.some.injEq] at h
    obtain ⟨V, hV, rfl⟩ := h
    obtain ⟨v, p, q, g1, g2, g3, g4, g5, g6⟩ := I.get_ok hV
    refine ⟨(w.1, w.2.set i (some { v with isset := false })), fps.set i (p ++ q), by simp only [World.step, g1, Res.ok_bind, Res.pure_def]; rfl,
      I.put1 g4 (by rw [g3]; exact .refl I.ok g5 ((SlotRep.present g2).live))
        (.present ⟨⟨g2.core.info, rfl, g2.core.cell⟩, g2.chain⟩)⟩
  | setval i j =>
    simp only [Values.step, Option.bind_eq_bind, Option.bind_eq_some_iff] at h
    obtain ⟨V, hV, S, hS, h⟩ := h
    split at h
    · cases h
    rename_i hij
    obtain ⟨v, p, q, g1, g2, g3, g4, g5, g6⟩ := I.get_ok hV
    obtain ⟨s, ps, qs, k1, k2, k3, k4, k5, k6⟩ := I.get_ok hS
    replace hij : ¬(i = j ∧ v.isset = true ∧ isText v.info = true) := by
      rw [g2.core.isset, g2.core.info]
      exact hij
    obtain ⟨e1, rfl⟩ := Inv.values_set h
    have hn := (List.nodup_append.mp g5).1
    obtain ⟨w', fps', a1, a2⟩ := I.set1 g2 g3 g4 (setval_sets hO I.ok g2.core hn k2.core e1) e1
    exact ⟨w', fps', by simp only [World.step, if_neg hij, Res.ok_bind, g1, k1]; exact a1, a2⟩
  | setattrs i j =>
    simp only [Values.step, Option.bind_eq_bind, Option.bind_eq_some_iff] at h
    obtain ⟨V, hV, S, hS, h⟩ := h
    obtain ⟨v, p, q, g1, g2, g3, g4, g5, g6⟩ := I.get_ok hV
    obtain ⟨s, ps, qs, k1, k2, k3, k4, k5, k6⟩ := I.get_ok hS
    split at h
    · rename_i hij
      cases h
      obtain ⟨h', a1, a2⟩ := clear_attrs_ok I.ok g2.chain (List.nodup_append.mp g5).2.1 g6.le
      obtain ⟨fps', b⟩ := I.chain1 g2 g3 g4 a2 .nil
      exact ⟨_, fps', by simp only [World.step, Res.ok_bind, g1, k1, if_pos hij, a1, Res.pure_def], b⟩
    rename_i hij
    replace hij : i ≠ j := hij
    obtain ⟨n1, n2⟩ := I.two_nodup g4 k4 hij
    rw [g3, k3] at n1 n2
    simp only [Option.bind_eq_some_iff, Option.pure_def, Option.some.injEq] at h
    obtain ⟨V', hV', rfl⟩ := h
    replace hV' := defined_ok hV'
    simp only [Var.setattrs, Res.bind_eq_ok, Res.pure_def, Res.ok.injEq] at hV'
    obtain ⟨L, hL, rfl⟩ := hV'
    have hn : (q ++ qs).Nodup := by
      have : ((q ++ qs) ++ (p ++ ps)).Nodup := (List.Perm.nodup_iff (by perms)).mp n1
      exact (List.nodup_append.mp this).1
    obtain ⟨h', y, q', a1, a2, a3⟩ := setattrs_ok I.ok g2.chain k2.chain hL hn g6.le k6.le
    obtain ⟨fps', b⟩ := I.chain1 g2 g3 g4 a2 a3
    exact ⟨_, fps', by simp only [World.step, if_neg hij, Res.ok_bind, g1, k1, a1, Res.pure_def], b⟩
  | seta i j =>
    simp only [Values.step, Option.bind_eq_bind, Option.bind_eq_some_iff, Option.pure_def,
      Option.some.injEq] at h
    obtain ⟨V, hV, S, hS, V', hV', rfl⟩ := h
    obtain ⟨v, p, q, g1, g2, g3, g4, g5, g6⟩ := I.get_ok hV
    obtain ⟨s, ps, qs, k1, k2, k3, k4, k5, k6⟩ := I.get_ok hS
    replace hV' := defined_ok hV'
    simp only [Var.seta, Res.bind_eq_ok, Res.pure_def, Res.ok.injEq] at hV'
    obtain ⟨C, hC, rfl⟩ := hV'
    have hd1 := I.short g2 g3 g4
    have hd2 := I.short k2 k3 k4
    obtain ⟨h', y, q', a1, a2, a3⟩ := seta_ok I.ok g2.chain k2 hC (List.nodup_append.mp g5).2.1 (d := w.depth)
      (by unfold World.depth; omega)
    obtain ⟨fps', b⟩ := I.chain1 g2 g3 g4 a2 a3
    exact ⟨_, fps', by simp only [World.step, Res.ok_bind, g1, k1, a1, Res.pure_def], b⟩
  | unseta i code =>
    simp only [Values.step, Option.bind_eq_bind, Option.bind_eq_some_iff, Option.pure_def,
      Option.some.injEq] at h
    obtain ⟨V, hV, rfl⟩ := h
    obtain ⟨v, p, q, g1, g2, g3, g4, g5, g6⟩ := I.get_ok hV
    obtain ⟨h', y, q', a1, a2, a3⟩ := unseta_ok _ I.ok (code := code) g2.chain (List.nodup_append.mp g5).2.1 g6
    obtain ⟨fps', b⟩ := I.chain1 g2 g3 g4 a2 a3
    exact ⟨_, fps', by simp only [World.step, Res.ok_bind, g1, a1, Res.pure_def], b⟩
  | clearAttrs i =>
    simp only [Values.step, Option.bind_eq_bind, Option.bind_eq_some_iff, Option.pure_def,
      Option.some.injEq] at h
    obtain ⟨V, hV, rfl⟩ := h
    obtain ⟨v, p, q, g1, g2, g3, g4, g5, g6⟩ := I.get_ok hV
    obtain ⟨h', a1, a2⟩ := clear_attrs_ok I.ok g2.chain (List.nodup_append.mp g5).2.1 g6.le
    obtain ⟨fps', b⟩ := I.chain1 g2 g3 g4 a2 .nil
    exact ⟨_, fps', by simp only [World.step, Res.ok_bind, g1, a1, Res.pure_def], b⟩
  | destroy i =>
    simp only [Values.step, Option.bind_eq_bind, Option.bind_eq_some_iff, Option.pure_def,
      Option.some.injEq] at h
    obtain ⟨V, hV, rfl⟩ := h
    obtain ⟨v, p, q, g1, g2, g3, g4, g5, g6⟩ := I.get_ok hV
    obtain ⟨h', a1, a2⟩ := destroy_ok _ I.ok g2.core g2.chain g5 g6
    exact ⟨(h', w.2.set i none), fps.set i [], by simp only [World.step, Res.ok_bind, g1, a1, Res.pure_def],
      I.put1 g4 (by rw [g3]; exact a2) .absent⟩

theorem run_ok {E : Env} {O : Opts} (hO : PlainHook O) (l : List Op) {w : World} {W W' : List (Option Var)}
    {fps : List (List Nat)} (I : Inv w W fps) (h : Values.run E O W l = some W') :
    ∃ w' fps', w.run E O l = .ok w' ∧ Inv w' W' fps' := by
  induction l generalizing w W fps with
  | nil =>
    simp only [Values.run, Option.some.injEq] at h
    subst h
    exact ⟨w, fps, rfl, I⟩
  | cons op l ih =>
    simp only [Values.run, Option.bind_eq_bind, Option.bind_eq_some_iff] at h
    obtain ⟨W1, h1, h2⟩ := h
    obtain ⟨w1, fps1, a1, a2⟩ := step_ok hO I h1
    obtain ⟨w2, fps2, b1, b2⟩ := ih a2 h2
    exact ⟨w2, fps2, by simp only [World.run, a1, Res.ok_bind, b1], b2⟩

theorem finish_ok (l : List Nat) {w : World} {W : List (Option Var)} {fps : List (List Nat)} (I : Inv w W fps) :
    ∃ w' W' fps', w.finish l = .ok w' ∧ Inv w' W' fps' ∧
      (∀ i ∈ l, W'[i]?.join = none) ∧ (∀ i : Nat, W[i]?.join = none → W'[i]?.join = none) ∧
      W'.length = W.length := by
  induction l generalizing w W fps with
  | nil => exact ⟨w, W, fps, rfl, I, by simp, fun _ h => h, rfl⟩
  | cons i l ih =>
    cases hV : W[i]?.join with
    | none =>
      have hw : w.2[i]?.join = none := by
        have := I.rep i
        rw [hV] at this
        generalize w.2[i]?.join = o at this
        generalize fps[i]?.getD [] = f at this
        cases this
        rfl
      obtain ⟨w', W', fps', a1, a2, a3, a4, a5⟩ := ih I
      refine ⟨w', W', fps', by simp only [World.finish, hw]; exact a1, a2, ?_, a4, a5⟩
      intro k hk
      rcases List.mem_cons.mp hk with rfl | hk
      · exact a4 k hV
      · exact a3 k hk
    | some V =>
      obtain ⟨v, p, q, g1, g2, g3, g4, g5, g6⟩ := I.get_ok hV
      obtain ⟨v', -, -, g1', -⟩ := I.get hV
      have hvv : v' = v := by
        simp only [World.get, g1', Res.ok.injEq] at g1
        exact g1
      subst hvv
      obtain ⟨h', b1, b2⟩ := destroy_ok _ I.ok g2.core g2.chain g5 g6
      have I' := I.put1 (o := none) (O := none) g4 (by rw [g3]; exact b2) .absent
      obtain ⟨w', W', fps', a1, a2, a3, a4, a5⟩ := ih I'
      have hnone : (W.set i none)[i]?.join = none := by
        rw [List.getElem?_set_self (slot_get hV)]
        rfl
      refine ⟨w', W', fps', by simp only [World.finish, g1', b1, Res.ok_bind]; exact a1, a2, ?_, ?_, by simpa using a5⟩
      · intro k hk
        rcases List.mem_cons.mp hk with rfl | hk
        · exact a4 k hnone
        · exact a3 k hk
      · intro k hk
        apply a4
        by_cases e : k = i
        · subst e
          exact hnone
        · rw [List.getElem?_set_ne (Ne.symm e)]
          exact hk

theorem inv_start (n : Nat) : Inv (.empty, List.replicate n none) (List.replicate n none) (List.replicate n []) := by
  refine ⟨fun a h => absurd rfl h, by simp, by simp, fun k => ?_, ?_, fun a => ?_⟩
  · by_cases hk : k < n
    · rw [List.getElem?_replicate_of_lt hk, List.getElem?_replicate_of_lt hk, List.getElem?_replicate_of_lt hk]
      exact .absent
    · rw [List.getElem?_eq_none (by simp; omega), List.getElem?_eq_none (by simp; omega),
        List.getElem?_eq_none (by simp; omega)]
      exact .absent
  · rw [List.flatten_replicate_nil]
    simp
  · rw [List.flatten_replicate_nil]
    simp [Heap.empty]

end Wreport.Own
