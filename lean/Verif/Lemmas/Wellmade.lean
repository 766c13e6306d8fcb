import Verif.Lemmas.Process
import Verif.Lemmas.DecoderCare
import Verif.Lemmas.CDecoderCare
import Verif.Lemmas.CrexCare
import Verif.Lemmas.CrexSafe

/-! # Whatever a process decodes is made of well-formed variables -/

namespace Wreport.Process

open Tabledir Spec

/-- What a context is made of. -/
structure MadeFrom (S : System) (O : Opts) (t : Ctx × TableCaches) : Prop where
  env : t.1.E = S.E
  opts : t.1.O = O
  table : t.1.btable.Inv S.E
  caches : t.2.Made S.E

theorem loadOnce_grown {E : Env} {files : List Byte → Option (List Byte)}
    {parse : List Byte → Res Vartable} (hQ : ∀ data t, parse data = .ok t → Grown E t t)
    {m : List (List Byte × Vartable)} (h : Loaded files parse (Grown E) m) {k : List Byte}
    {t : Vartable} (e : (loadOnce files parse m k).2 = .ok t) : t.Inv E := by
  obtain ⟨-, n⟩ := loadOnce_near hQ h k
  unfold Near at n
  split at n
  · obtain ⟨t', e', g⟩ := n
    rw [e] at e'
    cases e'
    exact g.2.2
  · rw [e] at n; cases n
  · rw [e] at n; cases n

theorem new_caches (E : Env) : Tables.new.caches.Made E := by
  refine ⟨?_, ?_, ?_⟩ <;> intro k i h <;> cases h

theorem load_bufr_made {S : System} {p : Process} (h : p.Inv S) (O : Opts) {id : BufrTableID}
    {t : Ctx × TableCaches} (e : context S O (p.load_bufr S .new id) = .ok t) :
    MadeFrom S O t := by
  unfold load_bufr setBufr at e
  simp only at e
  split at e
  · cases e
  · split at e
    · cases e
    · cases e
    · rename_i bt hb
      split at e
      · cases e
      · cases e
      · cases e
        exact ⟨rfl, rfl, loadOnce_grown Grown.bufr h.bufr_b hb, new_caches _⟩

theorem load_crex_made {S : System} {p : Process} (h : p.Inv S) (O : Opts) {id : CrexTableID}
    {t : Ctx × TableCaches} (e : context S O (p.load_crex S .new id) = .ok t) :
    MadeFrom S O t := by
  unfold load_crex setCrex at e
  simp only at e
  split at e
  · cases e
  · split at e
    · cases e
    · cases e
    · rename_i bt hb
      split at e
      · cases e
      · cases e
      · cases e
        exact ⟨rfl, rfl, loadOnce_grown Grown.crex h.crex_b hb, new_caches _⟩

theorem MadeFrom.fit {S : System} {O : Opts} {t : Ctx × TableCaches} (h : MadeFrom S O t)
    (hE : IsRounding S.E.fl) (hO : O.Sane S.E) : Decoder.Fit False t.1 :=
  ⟨by rw [h.env]; exact hE, by rw [h.env]; exact h.table, by rw [h.env, h.opts]; exact hO, nofun⟩

theorem decodeBufr_sane {S : System} {p : Process} (h : p.Inv S) (hE : IsRounding S.E.fl)
    {O : Opts} (hO : O.Sane S.E) {add_undef : Bool} {depth : Nat} {data : List Byte}
    {r : BufrDec.Head × List (List Var) × List Nat}
    (e : (p.decodeBufr S O add_undef depth data).2 = .ok r) :
    ∀ vs ∈ r.2.1, ∀ v ∈ vs, v.Sane S.E := by
  unfold decodeBufr decodeMessage BufrDec.decode at e
  simp only at e
  obtain ⟨hd, -, e⟩ := Res.bind_eq_ok.mp e
  obtain ⟨t, h2, e⟩ := Res.bind_eq_ok.mp e
  obtain ⟨x, h3, e⟩ := Res.bind_eq_ok.mp e
  obtain ⟨y, -, e⟩ := Res.bind_eq_ok.mp e
  cases e
  have m := load_bufr_made h O h2
  have f := m.fit hE hO
  have hc : t.2.Made t.1.E := by rw [m.env]; exact m.caches
  unfold decodeBody at h3
  split at h3
  · obtain ⟨z, h4, h3⟩ := Res.bind_eq_ok.mp h3
    cases h3
    have := (CDecoder.decodeSubsets_has f _ _ _ _ hc _).ok h4
    rw [m.env] at this
    exact fun vs hvs v hv => this.1 vs hvs v hv
  · obtain ⟨z, h4, h3⟩ := Res.bind_eq_ok.mp h3
    cases h3
    obtain ⟨K, hK⟩ := Decoder.decodeSubsets_has (l := ⟨0, 0, 0, 0⟩) f (nofun) (nofun) (nofun)
      (ops := hd.header.datadesc) (depth := depth) (nofun) (nofun)
    have := (hK add_undef _ t.2 _ 0 hc (nofun)).ok h4
    rw [m.env] at this
    exact this.1

theorem decodeCrex_sane {S : System} {p : Process} (h : p.Inv S) (hE : IsRounding S.E.fl)
    {O : Opts} (hO : O.Sane S.E) {depth fuel : Nat} {data : List Byte}
    {r : Crex.Header × List (List Var)}
    (e : (p.decodeCrex S O depth fuel data).2 = some (.ok r)) :
    ∀ vs ∈ r.2, ∀ v ∈ vs, v.Sane S.E := by
  unfold decodeCrex Crex.Decoder.decode at e
  simp only at e
  split at e
  · cases e
  · cases e
  · cases e
  · rename_i i hd hh
    split at e
    · cases e
    · cases e
    · rename_i t ht
      have m := load_crex_made h O ht
      have f := m.fit hE hO
      have hc : t.2.Made t.1.E := by rw [m.env]; exact m.caches
      obtain ⟨q, h1, h2⟩ := Option.map_eq_some_iff.mp e
      obtain ⟨x, h3, h4⟩ := Res.bind_eq_ok.mp h2
      cases h4
      have := (Crex.Decoder.decode_data_has (l := ⟨0, 0, 0, 0⟩) f (nofun) (nofun) (nofun) (nofun) (nofun)
        fuel t.2 i hc (Crex.Decoder.decode_header_inText hh) q h1).ok h3
      rw [m.env] at this
      exact this

end Wreport.Process
