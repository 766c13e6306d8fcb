import Verif.Lemmas.Base64
import Verif.Lemmas.Strings2

/-! # Properties of the string functions: C71 to C76 -/

namespace Wreport.Str

open Spec

/-! ## C71 Base64 -/

/-- C71: what is written is the base64 encoding of RFC 4648 of the text. -/
theorem C71_encoding (s : List Byte) : IsBase64 base64 s (encode_base64 s) := is_base64 s

/-- C71: decoding any base64 encoding of a text gives the text. -/
theorem C71_decoding (s t : List Byte) (h : IsBase64 base64 s t) : decode_base64 t = .ok s := by
  rw [isBase64_unique h (is_base64 s)]
  by_cases hs : s = []
  · subst hs; decide +kernel
  · obtain ⟨pre, y, k, z, h1, h2, h3, h4⟩ := decode_encode s hs
    simp only [decode_base64, h4, Res.ok_bind, Res.pure_def]
    rw [h1]
    simp only [List.reverse_append, List.reverse_cons, List.reverse_replicate, List.append_assoc,
      List.singleton_append]
    rw [unpad_ok y h2 _ k s z hs h3]

/-- C71: encoding and decoding are inverse. -/
theorem C71_round_trip (s : List Byte) : decode_base64 (encode_base64 s) = .ok s :=
  C71_decoding s _ (C71_encoding s)

/-- C71: decoding reads outside its table exactly on texts with an opening brace. -/
theorem C71_safe_partial (t : List Byte) : decode_base64 t = .ub ↔ (123 : Byte) ∈ t := by
  rcases groups_cases t with ⟨h1, h2⟩ | ⟨h1, r, h2⟩
  · simp [decode_base64, h1, h2]
  · simp [decode_base64, h1, h2]

/-- C71 fails for memory safety: the bound in `invbase64` is one too high. -/
theorem C71_not_safe : decode_base64 (ascii "{") = .ub := by decide +kernel

example : encode_base64 (ascii "pleasure.") = ascii "cGxlYXN1cmUu" := by decide +kernel
example : encode_base64 (ascii "sure.") = ascii "c3VyZS4=" := by decide +kernel
example : IsBase64 base64 (ascii "sure.") (ascii "c3VyZS4=") :=
  ⟨[28, 55, 21, 50, 25, 18, 56], 2, 1, by decide +kernel, by omega, by omega, by decide +kernel,
    by decide +kernel, by decide +kernel⟩
example : decode_base64 [0, 255, 61] = .ok [0, 0] := by decide +kernel

/-! ## C72 URLs -/

/-- C72: decoding an encoded text gives the text, for every text. -/
theorem C72_round_trip (s : List Byte) : decode_url (encode_url s) = s :=
  decode_encode_url s _ 0 (by simp)

/-- C72: an encoded text consists of letters, digits and the characters `-_!*'()%`. -/
theorem C72_characters (s : List Byte) (c : Byte) (h : c ∈ encode_url s) :
    c ∈ ascii "ABCDEFGHIJKLMNOPQRSTUVWXYZabcdefghijklmnopqrstuvwxyz0123456789-_!*'()%" := by
  have h0 : ∀ n < 256, ∀ d ∈ (if urlSafe (UInt8.ofNat n) then [UInt8.ofNat n] else 37 :: hex2 (UInt8.ofNat n)),
      d ∈ ascii "ABCDEFGHIJKLMNOPQRSTUVWXYZabcdefghijklmnopqrstuvwxyz0123456789-_!*'()%" := by
    decide +kernel
  obtain ⟨d, _, hd⟩ := List.mem_flatMap.1 h
  exact h0 d.toNat (lt256 d) c (by simpa using hd)

theorem decodeUrl_plain (t : List Byte) : ∀ (s : List Byte) (size i : Nat), (37 : Byte) ∉ s →
    decodeUrlFrom size i (s ++ t) = s ++ decodeUrlFrom size (i + s.length) t := by
  intro s
  induction s with
  | nil => intro size i _; simp
  | cons c s ih =>
    intro size i h
    simp at h
    rw [List.cons_append, decodeUrlFrom]
    simp only [show c ≠ 37 from fun hc => h.1 hc.symm, if_false]
    rw [ih size (i + 1) h.2]
    simp
    congr 1
    omega

/-- C72: an escape that is cut short by the end of the text is ignored, in texts of two
characters or more. -/
theorem C72_cut_partial (s t : List Byte) (h : (37 : Byte) ∉ s) (ht : t.length ≤ 1)
    (hn : s ++ t ≠ []) : decode_url (s ++ 37 :: t) = s := by
  have hl : 0 < (s ++ t).length := List.length_pos_iff.2 hn
  simp at hl
  rw [decode_url, decodeUrl_plain _ _ _ _ h, decodeUrlFrom]
  simp only [if_true]
  rw [if_pos]
  · simp
  · simp only [sizeMinus2, List.length_append, List.length_cons]
    rw [if_neg (by omega)]
    omega

/-- C72 fails for the text of just a percent sign: it is decoded to a NUL character. -/
theorem C72_not_cut : decode_url (ascii "%") = [0] := by
  simp [decode_url, ascii, decodeUrlFrom, sizeMinus2, strtoul16]

example : encode_url (ascii "a b/c") = ascii "a%20b%2fc" := by decide +kernel
example : decode_url (ascii "a%4") = ascii "a" :=
  C72_cut_partial (ascii "a") (ascii "4") (by decide +kernel) (by decide +kernel) (by decide +kernel)

/-! ## C73 C strings -/

/-- C73: what remains of a text that is escaped and unescaped, with or without a
following quote; how much is parsed. -/
theorem C73_shown (s rest : List Byte) :
    decode_cstring (encode_cstring s) = (s.map shown, (encode_cstring s).length) ∧
    decode_cstring (encode_cstring s ++ 34 :: rest) = (s.map shown, (encode_cstring s).length + 1) := by
  constructor
  · have := decode_encode_cstring s []
    rw [List.append_nil] at this
    rw [this]
    simp [decode_cstring]
  · have h : decode_cstring (34 :: rest) = ([], 1) := by rw [decode_cstring.eq_def]; simp
    rw [decode_encode_cstring, h]
    simp
    omega

/-- C73: a text without control characters other than newline, tab and NUL comes back,
and parsing stops right after the quote that follows it. -/
theorem C73_round_trip_partial (s rest : List Byte)
    (h : ∀ c ∈ s, (32 ≤ c.toNat ∧ c.toNat ≠ 127) ∨ c = 10 ∨ c = 9 ∨ c = 0) :
    decode_cstring (encode_cstring s) = (s, (encode_cstring s).length) ∧
    decode_cstring (encode_cstring s ++ 34 :: rest) = (s, (encode_cstring s).length + 1) := by
  have hs : s.map shown = s := by
    conv_rhs => rw [← List.map_id s]
    apply List.map_congr_left
    intro c hc
    simp only [shown, id]
    split
    · rename_i hx
      simp at hx
      have hcn : ∀ n < 256, (32 ≤ n ∧ n ≠ 127) → isCntrl (UInt8.ofNat n) = false := by decide +kernel
      rcases h c hc with h' | rfl | rfl | rfl
      · have := hcn c.toNat (lt256 c) h'
        simp_all
      all_goals simp_all
    · rfl
  have := C73_shown s rest
  rwa [hs] at this

/-- C73: an escaped text has no control characters, so it fits on a line. -/
theorem C73_printable (s : List Byte) (c : Byte) (h : c ∈ encode_cstring s) :
    32 ≤ c.toNat ∧ c.toNat ≠ 127 := by
  have h0 : ∀ n < 256, ∀ d ∈ escape (UInt8.ofNat n), 32 ≤ d.toNat ∧ d.toNat ≠ 127 := by decide +kernel
  obtain ⟨d, _, hd⟩ := List.mem_flatMap.1 h
  exact h0 d.toNat (lt256 d) c (by simpa using hd)

/-- C73 fails for other control characters: they come back as NUL, because `atoi` does
not read hexadecimal. -/
theorem C73_not_control : encode_cstring [27] = ascii "\\x1b" ∧
    decode_cstring (encode_cstring [27]) = ([0], 4) := by
  refine ⟨by decide +kernel, ?_⟩
  rw [(C73_shown [27] []).1]
  decide +kernel

example : ∀ c ∈ ascii "say \"hi\"\n\\", (32 ≤ c.toNat ∧ c.toNat ≠ 127) ∨ c = 10 ∨ c = 9 ∨ c = 0 := by
  decide +kernel
example : encode_cstring (ascii "say \"hi\"\n\\") = ascii "say \\\"hi\\\"\\n\\\\" := by decide +kernel

/-! ## C74 Splitting -/

/-- C74: a text is split into the pieces between the separators, from left to right; with
the iterator given `length + 3` turns or more it ends. -/
theorem C74_split (str sep : List Byte) (hs : sep ≠ []) (hstr : str ≠ []) (fuel : Nat)
    (hf : str.length + 3 ≤ fuel) :
    ∃ toks, split str sep false fuel = some toks ∧ IsSplit sep str toks := split_ok hs hstr fuel hf

/-- C74: joining the pieces gives the text back. -/
theorem C74_join (str sep : List Byte) (hs : sep ≠ []) (fuel : Nat) (hf : str.length + 3 ≤ fuel) :
    ∃ toks, split str sep false fuel = some toks ∧ join sep toks = str := by
  by_cases hstr : str = []
  · subst hstr
    obtain ⟨f, rfl⟩ : ∃ f, fuel = f + 1 := ⟨fuel - 1, by simp at hf; omega⟩
    exact ⟨[], split_nil _ _ _, rfl⟩
  · obtain ⟨toks, h1, h2⟩ := split_ok hs hstr fuel hf
    exact ⟨toks, h1, join_isSplit h2⟩

/-- C74: splitting at a character gives back the texts that were joined with it, unless
the joined text is empty. -/
theorem C74_back (c : Byte) (toks : List (List Byte)) (h : ∀ t ∈ toks, c ∉ t)
    (hn : join [c] toks ≠ []) (fuel : Nat) (hf : (join [c] toks).length + 3 ≤ fuel) :
    split (join [c] toks) [c] false fuel = some toks := by
  obtain ⟨r, h1, h2⟩ := split_ok (sep := [c]) (by simp) hn fuel hf
  rw [h1, isSplit_splitOn h2]
  congr 1
  have hj : join [c] toks = [c].intercalate toks := by
    cases toks with
    | nil => rfl
    | cons t ts =>
      clear h hn hf h1 h2
      induction ts generalizing t with
      | nil => simp [join]
      | cons u us ih =>
        rw [List.intercalate_cons_cons, ← ih u]
        simp [join]
  rw [hj]
  apply List.splitOn_intercalate c h
  rintro rfl
  exact hn rfl

/-- C74: with `skip_empty` the pieces that are not empty are given, if the text is not
made of separators only. -/
theorem C74_skip_partial (str sep : List Byte) (hs : sep ≠ [])
    (hstr : ∀ k, str ≠ (List.replicate k sep).flatten) (fuel : Nat) (hf : str.length + 3 ≤ fuel) :
    ∃ toks, split str sep true fuel = some (toks.filter (· ≠ [])) ∧ IsSplit sep str toks :=
  split_skip_ok hs hstr fuel hf

/-- C74 fails for a text of separators only: an empty piece is given though empty pieces
are to be skipped. -/
theorem C74_not_skipped : split (ascii "//") (ascii "/") true 5 = some [[]] := by decide +kernel

/-- C74 fails for an empty separator when empty pieces are to be skipped: the loop never
ends, however many turns it is given. -/
theorem C74_not_ending (str : List Byte) (h : str ≠ []) (fuel : Nat) : split str [] true fuel = none := by
  simp [split, Iter.begin, h, skip_empty_sep]

example : split (ascii "a//b/") (ascii "/") false 8 = some [[97], [], [98], []] := by decide +kernel
example : split (ascii "//a//b/") (ascii "/") true 10 = some [[97], [98]] := by decide +kernel
example : IsSplit (ascii "aa") (ascii "baaab") [ascii "b", ascii "ab"] := by
  obtain ⟨toks, h1, h2⟩ := C74_split (ascii "baaab") (ascii "aa") (by decide +kernel) (by decide +kernel) 8
    (by decide +kernel)
  have : split (ascii "baaab") (ascii "aa") false 8 = some [ascii "b", ascii "ab"] := by decide +kernel
  rw [this] at h1
  simp at h1
  rwa [← h1] at h2
example : ∀ k, ascii "/a" ≠ (List.replicate k (ascii "/")).flatten := by
  intro k h
  have : (97 : Byte) ∈ (List.replicate k (ascii "/")).flatten := by rw [← h]; decide +kernel
  obtain ⟨l, hl, hm⟩ := List.mem_flatten.1 this
  rw [List.eq_of_mem_replicate hl] at hm
  revert hm
  decide +kernel
example : ∀ t ∈ [ascii "a", [], ascii "bc"], (47 : Byte) ∉ t := by decide +kernel

/-! ## C75 Paths -/

/-- C75: appending a path to another leads where one gets by following both. -/
theorem C75_append (a b : List Byte) :
    components (appendpath a b) = components a ++ components b ∧
    absolute (appendpath a b) = if a = [] then absolute b else absolute a := by
  refine ⟨appendpath_components a b, ?_⟩
  by_cases ha : a = []
  · subst ha
    by_cases hb : b = []
    · simp [appendpath, hb]
    · simp [appendpath, hb]
  · obtain ⟨x, a', rfl⟩ := List.exists_cons_of_ne_nil ha
    have : ∃ t, appendpath (x :: a') b = x :: a' ++ t := by
      unfold appendpath
      split
      · exact ⟨[], by simp⟩
      split
      · split
        · exact ⟨_, rfl⟩
        · exact ⟨_, rfl⟩
      · split
        · exact ⟨_, rfl⟩
        · exact ⟨_, rfl⟩
    obtain ⟨t, ht⟩ := this
    rw [ht]
    simp [absolute]

/-- C75: the file name is what follows the last slash. -/
theorem C75_basename (p : List Byte) :
    ∃ d, p = d ++ basename p ∧ (47 : Byte) ∉ basename p ∧ (d = [] ∨ d.getLast? = some 47) := by
  unfold basename
  cases h : rfind p p.length with
  | none =>
    have := rfind_none h
    exact ⟨[], by simp, by simpa using this, .inl rfl⟩
  | some i =>
    obtain ⟨b, h1, h2, h3⟩ := rfind_split (le_refl _) h
    simp only [List.take_length] at h1
    have hi : (p.take i).length = i := by simp; omega
    have hb : p.drop (i + 1) = b := by
      rw [h1]
      have : p.take i ++ 47 :: b = (p.take i ++ [47]) ++ b := by simp
      rw [this, List.drop_left' (by simp [hi])]
    refine ⟨p.take i ++ [47], ?_, ?_, .inr (by simp)⟩
    · simp only [hb]
      rw [List.append_assoc]
      simpa using h1
    · simp only [hb]; exact h2

theorem cut_slashes (s : List Byte) (e : Nat) :
    ∃ b, s.take e = s.take (cutBack (· == 47) s 0 e) ++ b ∧ (∀ c ∈ b, c = 47) := by
  obtain ⟨_, h2, h3, _⟩ := cutBack_spec (· == 47) s 0 e (by omega)
  refine ⟨(s.take e).drop (cutBack (· == 47) s 0 e), ?_, ?_⟩
  · have := List.take_append_drop (cutBack (· == 47) s 0 e) (s.take e)
    rw [List.take_take, Nat.min_eq_left h2] at this
    exact this.symm
  · intro c hc
    obtain ⟨i, hi, hl, rfl⟩ := mem_drop_getD hc
    simp at hl
    have := h3 i hi hl.1
    simp [List.getD_eq_getElem?_getD, List.getElem?_take_of_lt hl.1] at this ⊢
    exact this

theorem absolute_take {s : List Byte} {n : Nat} (h : 0 < n) : absolute (s.take n) = absolute s := by
  cases s with
  | nil => simp
  | cons c s =>
    obtain ⟨m, rfl⟩ : ∃ m, n = m + 1 := ⟨n - 1, by omega⟩
    simp [absolute]

/-- C75: the directory name leads one step less far, and the root stays the root. A
single name is in the current directory. -/
theorem C75_dirname (p : List Byte) :
    absolute (dirname p) = absolute p ∧
    (components p = [] → dirname p = if p = [] then [46] else [47]) ∧
    (∀ cs b, components p = cs ++ [b] →
      components (dirname p) = if cs = [] ∧ absolute p = false then [[46]] else cs) := by
  unfold dirname
  by_cases hp : p = []
  · subst hp
    simp
    decide
  rw [if_neg hp]
  obtain ⟨sl, h1, h2⟩ := cut_slashes p p.length
  obtain ⟨_, hle, _, hlast⟩ := cutBack_spec (· == 47) p 0 p.length (by omega)
  simp only
  generalize hE : cutBack (· == 47) p 0 p.length = e at *
  rw [List.take_length] at h1
  have hcp : components p = components (p.take e) := by
    conv_lhs => rw [h1]
    exact components_slashes h2
  by_cases he : e = 0
  · subst he
    simp at h1 hcp
    have hab : absolute p = true := by
      obtain ⟨c, p', rfl⟩ := List.exists_cons_of_ne_nil hp
      rw [← h1] at h2
      simp [absolute, h2 c (by simp)]
    rw [if_pos rfl, hab]
    refine ⟨by decide, by simp [hp], ?_⟩
    intro cs b h
    rw [hcp] at h
    simp at h
  rw [if_neg he]
  have hnl : (p.take e).getLast? ≠ some 47 := by
    intro h
    obtain ⟨_, hx⟩ := getLast_take hle h
    rcases hlast with h0 | h0
    · exact he h0
    · rw [hx] at h0
      simp at h0
  have hne : p.take e ≠ [] := by
    intro h
    have := congrArg List.length h
    simp at this
    rcases this with h | h
    · exact he h
    · exact hp h
  cases hr : rfind p e with
  | none =>
    have hn := rfind_none hr
    have hc := components_name hn hne
    have hab : absolute p = false := by
      rw [← absolute_take (s := p) (n := e) (by omega)]
      obtain ⟨c, t, ht⟩ := List.exists_cons_of_ne_nil hne
      rw [ht] at hn ⊢
      simp at hn
      simp [absolute]
      exact fun h => hn.1 h.symm
    rw [hcp, hc, hab]
    simp only
    refine ⟨by decide, by simp, ?_⟩
    intro cs b h
    have : cs = [] := by
      have := congrArg List.length h
      simp at this
      exact this
    simp [this]
    decide +kernel
  | some i =>
    obtain ⟨b, hb1, hb2, hb3⟩ := rfind_split hle hr
    have hbn : b ≠ [] := by
      rintro rfl
      apply hnl
      rw [hb1]
      simp
    have hc : components p = components (p.take i) ++ [b] := by
      rw [hcp, hb1, components_append, components_name hb2 hbn]
    obtain ⟨sl', h3, h4⟩ := cut_slashes p i
    simp only
    generalize hE2 : cutBack (· == 47) p 0 i = e2 at *
    have hci : components (p.take i) = components (p.take e2) := by
      rw [h3]; exact components_slashes h4
    by_cases he2 : e2 = 0
    · subst he2
      have hab : absolute p = true := by
        rw [← absolute_take (s := p) (n := i + 1) (by omega)]
        have : p.take (i + 1) = p.take i ++ [47] := by
          have := congrArg (List.take (i + 1)) hb1
          rw [List.take_take, Nat.min_eq_left (by omega), List.take_append] at this
          rw [this]
          have hl : (p.take i).length = i := by simp; omega
          rw [List.take_take, Nat.min_eq_right (by omega), hl]
          simp
        rw [this, h3]
        simp only [List.take_zero, List.nil_append]
        cases sl' with
        | nil => decide
        | cons c t => simp [absolute, h4 c (by simp)]
      rw [if_pos rfl, hab]
      refine ⟨by decide, by rw [hc]; simp, ?_⟩
      intro cs b' h
      rw [hc, hci] at h
      simp at h
      have hcs : cs = [] := by
        have := congrArg List.length h
        simp at this
        exact this
      subst hcs
      simp
      decide +kernel
    · rw [if_neg he2]
      refine ⟨absolute_take (by omega), by rw [hc]; simp, ?_⟩
      intro cs b' h
      rw [hc, hci] at h
      obtain ⟨h5, _⟩ := List.append_inj' h rfl
      have hw : components (p.take e2) ≠ [] := by
        intro hx
        have hl2 := cutBack_spec (· == 47) p 0 i (by omega)
        rw [hE2] at hl2
        obtain ⟨_, hl2, _, hl3⟩ := hl2
        have hln : (p.take e2).getLast? ≠ some 47 := by
          intro h
          obtain ⟨_, hx⟩ := getLast_take (by omega) h
          rcases hl3 with h0 | h0
          · exact he2 h0
          · rw [hx] at h0
            simp at h0
        have hwn : p.take e2 ≠ [] := by
          intro h
          have := congrArg List.length h
          simp at this
          rcases this with h | h
          · exact he2 h
          · exact hp h
        have hj := C75_basename (p.take e2)
        obtain ⟨d, hd1, hd2, hd3⟩ := hj
        by_cases hbn' : basename (p.take e2) = []
        · rw [hbn', List.append_nil] at hd1
          rcases hd3 with hd3 | hd3
          · rw [hd3] at hd1; exact hwn hd1
          · rw [← hd1] at hd3; exact hln hd3
        · rcases hd3 with hd3 | hd3
          · rw [hd1, hd3, List.nil_append, components_name hd2 hbn'] at hx
            simp at hx
          · obtain ⟨d', rfl⟩ := List.getLast?_eq_some_iff.1 hd3
            rw [hd1, List.append_assoc, List.singleton_append, components_append,
              components_name hd2 hbn'] at hx
            simp at hx
      rw [h5] at hw ⊢
      simp [hw]

/-- C75: a path that does not climb out of the directory it starts from is normalised to
plain names reached by leaving out dots, names followed by two dots and two dots at the
root; separators and the kind of path are normal too. -/
theorem C75_normalised_partial (p : List Byte) (h : ¬ climbs p) :
    ∃ names, normpath p = .ok (pathText (absolute p) names) ∧
      (∀ n ∈ names, n ≠ [46] ∧ n ≠ [46, 46] ∧ n ≠ [] ∧ (47 : Byte) ∉ n) ∧
      Relation.ReflTransGen (Simplifies (absolute p)) (components p) names := by
  have hf := norm_fold (absolute p) (components p) [] (by intro n hn; simp at hn)
    (fun c hc => components_mem hc)
  simp only [List.append_nil, List.nil_append] at hf
  rcases hf with ⟨names, h1, h2, h3, _⟩ | ⟨_, h2, a, b, h3, h4⟩
  · refine ⟨names, ?_, h2, h3⟩
    rw [normpath_eq, h1, Res.ok_bind, stack_text _ _ h2]
  · exact absurd ⟨h2, a, b, h3, by simpa [downs] using h4⟩ h

/-- C75 fails for paths that climb out of the directory they start from: the last element
of an empty vector is read. -/
theorem C75_not_climbing (p : List Byte) : normpath p = .ub ↔ climbs p := by
  constructor
  · intro h
    by_contra hc
    obtain ⟨names, h1, _⟩ := C75_normalised_partial p hc
    rw [h1] at h
    simp at h
  · rintro ⟨ha, a, b, hab, hlt⟩
    have hf := norm_fold (absolute p) (components p) [] (by intro n hn; simp at hn)
      (fun c hc => components_mem hc)
    simp only [List.append_nil, List.nil_append] at hf
    rcases hf with ⟨names, h1, h2, h3, h4⟩ | ⟨h1, _⟩
    · have := h4 ha a b hab
      simp [downs] at this
      simp at hlt
      omega
    · rw [normpath_eq, h1]; rfl

theorem components_text (root : Bool) (names : List (List Byte)) (hp : Plain names) :
    components (pathText root names) = (if root = false ∧ names = [] then [[46]] else names) ∧
      absolute (pathText root names) = root := by
  cases names with
  | nil => cases root <;> decide +kernel
  | cons n ns =>
    have hn := hp n (by simp)
    have hc : components ([47].intercalate (n :: ns)) = n :: ns := by
      rw [components, List.splitOn_intercalate 47 (fun l hl => (hp l hl).2.2.2) (by simp)]
      rw [List.filter_eq_self]
      intro l hl
      simpa using (hp l hl).2.2.1
    obtain ⟨c, t, rfl⟩ := List.exists_cons_of_ne_nil hn.2.2.1
    cases root with
    | true => simp only [pathText, if_true]; exact ⟨by simpa [components_cons] using hc, by simp [absolute]⟩
    | false =>
      refine ⟨by simpa [pathText] using hc, ?_⟩
      rw [pathText, intercalate_flatMap]
      simp [absolute]
      rintro rfl
      simp at hn

/-- C75: normalising twice is normalising once. -/
theorem C75_idempotent (p r : List Byte) (h : normpath p = .ok r) : normpath r = .ok r := by
  have hc : ¬ climbs p := by
    intro hc
    rw [(C75_not_climbing p).2 hc] at h
    simp at h
  obtain ⟨names, h1, h2, _⟩ := C75_normalised_partial p hc
  rw [h] at h1
  simp at h1
  subst h1
  obtain ⟨h3, h4⟩ := components_text (absolute p) names h2
  have hf : ∀ (cs ns : List (List Byte)), Plain cs →
      cs.foldlM normStep ns = .ok (ns ++ cs) := by
    intro cs
    induction cs with
    | nil => intro ns _; simp
    | cons c cs ih =>
      intro ns hcs
      have hc := hcs c (by simp)
      rw [List.foldlM_cons]
      simp only [normStep, hc.1, hc.2.1, hc.2.2.1, or_self, if_false, Res.ok_bind]
      rw [ih _ (fun d hd => hcs d (by simp [hd]))]
      simp
  rw [normpath_eq, h3, h4]
  by_cases hx : absolute p = false ∧ names = []
  · rw [if_pos hx, hx.1, hx.2]
    decide +kernel
  · rw [if_neg hx, hf names _ h2, Res.ok_bind, stack_text _ _ h2]

example : normpath (ascii "a//b/./c/../d/") = .ok (ascii "a/b/d") := by decide +kernel
example : ¬ climbs (ascii "a/../b") := by
  intro h
  have := (C75_not_climbing (ascii "a/../b")).2 h
  revert this
  decide +kernel
example : climbs (ascii "a/../..") := (C75_not_climbing _).1 (by decide +kernel)
example : dirname (ascii "/usr//lib/") = ascii "/usr" := by decide +kernel
example : components (ascii "/usr//lib/") = [ascii "usr"] ++ [ascii "lib"] := by decide +kernel

/-! ## C76 Stripping -/

/-- C76: `lstrip`, `rstrip` and `strip` remove the white space at the ends, all of it
and nothing else. -/
theorem C76_stripped (s : List Byte) :
    LStripped isSpace s (lstrip s) ∧ RStripped isSpace s (rstrip s) ∧ Stripped isSpace s (strip s) := by
  by_cases hs : s = []
  · subst hs
    refine ⟨⟨[], rfl, by simp, by simp [lstrip, lstripBy]⟩,
      ⟨[], rfl, by simp, by simp [rstrip, rstripBy]⟩, [], ⟨[], rfl, by simp, by simp⟩,
      ⟨[], rfl, by simp, by simp [strip, stripBy]⟩⟩
  · refine ⟨?_, ?_, s.drop (skipFront isSpace s), lstripped_drop _ _, ?_⟩
    · simp only [lstrip, lstripBy, if_neg hs]
      exact lstripped_drop _ _
    · simp only [rstrip, rstripBy, if_neg hs]
      have := rstripped_take isSpace s
      split
      · rename_i h
        rwa [h, List.take_zero] at this
      · exact this
    · simp only [strip, stripBy, if_neg hs]
      have hb := (drop_skipFront isSpace s).2
      obtain ⟨h1, h2, h3, h4⟩ := cutBack_spec isSpace s (skipFront isSpace s) s.length hb
      generalize skipFront isSpace s = b at *
      generalize cutBack isSpace s b s.length = e at *
      refine ⟨s.drop e, ?_, ?_, ?_⟩
      · have := List.take_append_drop (e - b) (s.drop b)
        rw [List.drop_drop, show b + (e - b) = e by omega] at this
        exact this.symm
      · intro c hc
        obtain ⟨i, hi, hl, rfl⟩ := mem_drop_getD hc
        exact h3 i hi hl
      · intro c hc
        obtain ⟨h0, hx⟩ := getLast_take (by simp; omega) hc
        rcases h4 with h4 | h4
        · omega
        · have : s.getD (e - 1) 0 = c := by
            rw [← hx]
            simp [List.getD_eq_getElem?_getD]
            congr 2
            omega
          rw [← this]
          exact h4.2

/-- C76: a text has one stripped form. -/
theorem C76_unique (p : Byte → Bool) (s r r' : List Byte) (h : Stripped p s r) (h' : Stripped p s r') :
    r = r' := by
  have hl : ∀ s m m' : List Byte, LStripped p s m → LStripped p s m' → m = m' := by
    intro s m m' ⟨a, h1, h2, h3⟩ ⟨a', h1', h2', h3'⟩
    have : ∀ a m, s = a ++ m → (∀ c ∈ a, p c = true) → (∀ c, m.head? = some c → p c = false) →
        m = s.dropWhile p := by
      intro a m he ha hm
      subst he
      rw [List.dropWhile_append_of_pos ha]
      cases m with
      | nil => simp
      | cons c m => simp [hm c rfl]
    rw [this a m h1 h2 h3, this a' m' h1' h2' h3']
  have hr : ∀ s m m' : List Byte, RStripped p s m → RStripped p s m' → m = m' := by
    intro s m m' ⟨a, h1, h2, h3⟩ ⟨a', h1', h2', h3'⟩
    have := hl s.reverse m.reverse m'.reverse
      ⟨a.reverse, by rw [h1]; simp, by simpa using h2, by simpa using h3⟩
      ⟨a'.reverse, by rw [h1']; simp, by simpa using h2', by simpa using h3'⟩
    simpa using this
  obtain ⟨m, h1, h2⟩ := h
  obtain ⟨m', h1', h2'⟩ := h'
  have := hl s m m' h1 h1'
  subst this
  exact hr m r r' h2 h2'

/-- C76: `startswith` and `endswith` tell if a text begins or ends with another. -/
theorem C76_affixes (s t : List Byte) :
    (startswith s t = true ↔ t <+: s) ∧ (endswith s t = true ↔ t <:+ s) := by
  constructor
  · unfold startswith
    split
    · rename_i h
      simp
      intro hp
      have := hp.length_le
      omega
    · rw [beq_iff_eq]
      constructor
      · intro h
        have := List.take_append_drop t.length s
        rw [h] at this
        exact ⟨_, this⟩
      · rintro ⟨r, rfl⟩
        simp
  · unfold endswith
    split
    · rename_i h
      simp
      intro hp
      have := hp.length_le
      omega
    · rw [beq_iff_eq]
      constructor
      · intro h
        have := List.take_append_drop (s.length - t.length) s
        rw [h] at this
        exact ⟨_, this⟩
      · rintro ⟨r, rfl⟩
        simp

example : strip (ascii " \ta b\n ") = ascii "a b" := by decide +kernel
example : lstrip (ascii "  a ") = ascii "a " := by decide +kernel

end Wreport.Str
