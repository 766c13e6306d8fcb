import Verif.Lemmas.CrexMessage
import Verif.Props.Varcode
import Verif.Props.Operators
import Verif.Spec.CrexMessage

/-!
# CREX: whole messages
-/

namespace Wreport.Crex

open Wreport.Spec

/-! ## Numbers -/

theorem zeroPadded_append (n m a b : Nat) (hb : b < 10 ^ m) :
    zeroPadded n a ++ zeroPadded m b = zeroPadded (n + m) (a * 10 ^ m + b) := by
  induction m generalizing b with
  | zero =>
    have : b = 0 := by simpa using hb
    subst this
    simp [zeroPadded]
  | succ m ih =>
    rw [← Nat.add_assoc]
    simp only [zeroPadded]
    rw [← List.append_assoc, ih (b / 10) (by rw [Nat.pow_succ] at hb; omega)]
    have h : a * 10 ^ (m + 1) = 10 * (a * 10 ^ m) := by ring
    rw [h]
    congr 2
    · omega
    · congr 2; omega

theorem fmtHhd_eq (n : Nat) (b : Byte) (hb : b.toNat < 128) (h : b.toNat < 10 ^ n) (hn : 0 < n) :
    fmtHhd n b = zeroPadded n b.toNat := by
  unfold fmtHhd fmtD
  rw [if_pos hb, if_neg (by omega), Int.natAbs_natCast, fmtU_eq n _ h hn]

theorem descriptor_eq {c : Varcode} (hc : c < 65536)
    (h : c ∉ [WR_VAR 0 31 0, WR_VAR 0 31 1, WR_VAR 0 31 2]) :
    Encoder.descriptor c = 32 :: crexDescriptor c := by
  unfold Encoder.descriptor crexDescriptor
  rw [WR_VAR_F_eq _ hc, WR_VAR_X_eq, WR_VAR_Y_eq, if_neg, fmtU_eq 2 _ (by omega) (by decide),
    fmtU_eq 3 _ (by omega) (by decide)]
  · have : c / 16384 = 0 ∨ c / 16384 = 1 ∨ c / 16384 = 2 ∨ c / 16384 = 3 := by omega
    rcases this with h | h | h | h <;> rw [h] <;> rfl
  · rintro ⟨h1, h2, h3⟩
    apply h
    have : c = 7936 ∨ c = 7937 ∨ c = 7938 := by omega
    rcases this with rfl | rfl | rfl <;> decide

theorem crexDescriptor_format {c : Varcode} (hc : c < 65536) : crexDescriptor c = varcode_format c := by
  unfold crexDescriptor varcode_format
  rw [WR_VAR_F_eq _ hc, WR_VAR_X_eq, WR_VAR_Y_eq]
  have : c / 16384 = 0 ∨ c / 16384 = 1 ∨ c / 16384 = 2 ∨ c / 16384 = 3 := by omega
  simp only [zeroPadded, digitChar, Nat.div_div_eq_div_mul]
  rcases this with h | h | h | h <;> rw [h] <;> rfl

/-- The text of a descriptor, taken apart. -/
theorem varcode_format_form (c : Varcode) : ∃ f x1 x2 y1 y2 y3,
    varcode_format c = [f, x1, x2, y1, y2, y3] ∧ (f = 66 ∨ f = 82 ∨ f = 67 ∨ f = 68) ∧
      ∀ d ∈ [x1, x2, y1, y2, y3], 48 ≤ d.toNat ∧ d.toNat ≤ 57 := by
  refine ⟨_, _, _, _, _, _, rfl, ?_, ?_⟩
  · split <;> simp
  · intro d hd
    have hdig : ∀ n, 48 ≤ (digitChar n).toNat ∧ (digitChar n).toNat ≤ 57 := by
      intro n
      unfold digitChar
      rw [UInt8.toNat_ofNat']
      omega
    simp only [List.mem_cons, List.not_mem_nil, or_false] at hd
    rcases hd with rfl | rfl | rfl | rfl | rfl <;> exact hdig _

theorem parseDescriptor_format {c : Varcode} (hc : c < 65536) :
    Decoder.parseDescriptor (varcode_format c) = .ok c := by
  have h := C01_parse_format c hc
  obtain ⟨f, x1, x2, y1, y2, y3, hf, -, hd⟩ := varcode_format_form c
  rw [hf] at h ⊢
  unfold varcode_parse at h
  simp only [varcodeCheck_digits x1 x2 y1 y2 y3 [] hd, List.getD_cons_zero, List.getD_cons_succ] at h
  have hdig : ∀ d ∈ [x1, x2, y1, y2, y3], isDigit d = true := fun d m => (isDigit_iff d).mpr (hd d m)
  unfold Decoder.parseDescriptor
  rw [if_neg, if_neg]
  · exact h
  · have g1 := hd x1 (by simp)
    have g2 := hd x2 (by simp)
    simp only [List.getD_cons_zero, List.getD_cons_succ]
    unfold charSub0
    rw [if_pos (by omega), if_pos (by omega)]
    omega
  · simp only [List.drop_succ_cons, List.drop_zero, List.take_succ_cons, List.take_zero,
      Bool.not_eq_true', Bool.not_eq_false]
    rw [List.all_eq_true]
    intro d m
    rw [hdig d m]
    rfl

/-! ## The header -/

theorem scan2_ok {k : Nat} (hk : k < 100) (u : List Byte) :
    Decoder.scan2 (zeroPadded 2 k ++ u) = some (UInt8.ofNat k, u) := by
  have h : ∀ k : Fin 100, ∃ a b, zeroPadded 2 k.1 = [a, b] ∧ isDigit a = true ∧ isDigit b = true ∧
      UInt8.ofNat ((a.toNat - 48) * 10 + (b.toNat - 48)) = UInt8.ofNat k.1 := by
    intro k
    refine ⟨_, _, rfl, ?_⟩
    revert k
    decide +kernel
  obtain ⟨a, b, h1, h2, h3, h4⟩ := h ⟨k, hk⟩
  simp only at h1 h4
  rw [h1]
  simp only [Decoder.scan2, List.cons_append, List.nil_append, h2, h3, if_true, h4]

theorem scanEdition_ok {a b c : Byte} (ha : a.toNat < 100) (hb : b.toNat < 100) (hc : c.toNat < 100) :
    Decoder.scanEdition (84 :: (zeroPadded 2 a.toNat ++ (zeroPadded 2 b.toNat ++ zeroPadded 2 c.toNat))) =
      some (a, b, c) := by
  unfold Decoder.scanEdition
  simp only [scan2_ok ha, scan2_ok hb, bind, Option.bind_some]
  have := scan2_ok hc []
  rw [List.append_nil] at this
  simp only [this, Option.bind_some, UInt8.ofNat_toNat]
  rfl

theorem takeWhile_nul {s : List Byte} (h : ∀ b ∈ s, b ≠ 0) : s.takeWhile (· ≠ 0) = s := by
  rw [List.takeWhile_eq_self_iff]
  intro b hb
  simpa using h b hb

theorem zeroPadded_nul (n k : Nat) : ∀ b ∈ zeroPadded n k, b ≠ 0 := by
  intro b hb e
  have := (zeroPadded_digits n k b hb).1
  rw [e] at this
  exact absurd this (by decide)

theorem zeroPadded_nospace (n k : Nat) : ∀ b ∈ zeroPadded n k, isSpace b = false := by
  intro b hb
  exact (digit_not (zeroPadded_digits n k b hb)).1

theorem strtol_padded (n k : Nat) (hn : 0 < n) (hk : k < 10 ^ n) (hi : k < 2147483648) :
    strtol (zeroPadded n k) = k := by
  have := strtol_ok (n := n) (k := (k : Int)) (rest := []) hn (by simpa using hk)
    (by rw [inInt_iff]; omega) (fun b h => by cases h)
  simp only [crexValue, if_neg (show ¬ (k : Int) < 0 by omega), List.nil_append, List.append_nil,
    Int.natAbs_natCast] at this
  exact this

/-- The words of categories. -/
def tableWord (h : Header) : List Byte :=
  65 :: (zeroPadded 3 h.data_category.toNat ++
    (if h.data_subcategory = 255 then [] else zeroPadded 3 h.data_subcategory.toNat))

theorem scanATable_ok {h : Header} (hc : h.data_category.toNat < 128)
    (hs : h.data_subcategory = 255 ∨ h.data_subcategory.toNat < 128) :
    Decoder.scanATable (tableWord h) =
      .ok (h.data_category, h.data_subcategory, (crexReread h).data_subcategory_local) := by
  have hnul : ∀ b ∈ tableWord h, b ≠ 0 := by
    intro b hb
    unfold tableWord at hb
    simp only [List.mem_cons, List.mem_append] at hb
    rcases hb with rfl | hb | hb
    · decide
    · exact zeroPadded_nul _ _ b hb
    · split at hb
      · cases hb
      · exact zeroPadded_nul _ _ b hb
  unfold Decoder.scanATable
  rw [takeWhile_nul hnul]
  simp only [tableWord, List.tail_cons, List.length_cons, List.length_append, zeroPadded_length]
  by_cases h255 : h.data_subcategory = 255
  · simp only [h255, if_true, List.append_nil, List.length_nil, Nat.add_zero, Nat.add_sub_cancel,
      crexReread]
    rw [strtol_padded 3 _ (by decide) (by omega) (by omega)]
    have : toU32 (h.data_category.toNat : Int) = h.data_category.toNat := by unfold toU32; omega
    rw [this, UInt8.ofNat_toNat]
  · have hs := hs.resolve_left h255
    simp only [h255, if_false, zeroPadded_length, crexReread, Nat.reduceAdd, Nat.reduceSub,
      Nat.reduceEqDiff, if_true]
    rw [zeroPadded_append 3 3 _ _ (by omega), strtol_padded _ _ (by decide) (by omega) (by omega)]
    have : toU32 ((h.data_category.toNat * 10 ^ 3 + h.data_subcategory.toNat : Nat) : Int) =
      h.data_category.toNat * 1000 + h.data_subcategory.toNat := by unfold toU32; omega
    rw [this, show (h.data_category.toNat * 1000 + h.data_subcategory.toNat) / 1000 =
      h.data_category.toNat by omega, show (h.data_category.toNat * 1000 + h.data_subcategory.toNat) % 1000 =
      h.data_subcategory.toNat by omega, UInt8.ofNat_toNat, UInt8.ofNat_toNat]

/-- A word is read. -/
theorem read_word_ok {i : In} {w r : List Byte} {n : Nat} (h : i.rem = w ++ 32 :: r)
    (hw : ∀ b ∈ w, isSpace b = false) (hn : w.length < n) :
    ∃ j, i.read_word n = (w, j) ∧ j.rem = r.dropWhile isSpace ∧
      j.has_check_digit = i.has_check_digit ∧ j.expected_check_digit = i.expected_check_digit := by
  have h1 : (i.rem.takeWhile fun c => !isSpace c) = w := by
    rw [h, List.takeWhile_append_of_pos (by intro b hb; rw [hw b hb]; rfl), List.takeWhile_cons_of_neg
      (by decide), List.append_nil]
  refine ⟨(i.adv w.length).skip_spaces, ?_, ?_, rfl, rfl⟩
  · unfold In.read_word
    rw [h1, List.take_of_length_le (by omega)]
  · rw [In.rem_skip, In.rem_adv, h, List.drop_left, List.dropWhile_cons_of_pos rfl]

/-- The descriptors are read. -/
theorem descLoop_ok (l : List Varcode) (hl : ∀ c ∈ l, c < 65536) (r : List Byte) (fuel : Nat)
    (hf : l.length < fuel) (i : In) (h : Header)
    (hi : i.rem = (l.flatMap (fun c => 32 :: crexDescriptor c) ++ (ascii "++\r\r\n" ++ r)).dropWhile isSpace) :
    ∃ j, Decoder.descLoop fuel (i, h) = some (.ok (j, { h with datadesc := h.datadesc ++ l })) ∧
      j.rem = r.dropWhile isSpace ∧ j.has_check_digit = i.has_check_digit ∧
      j.expected_check_digit = i.expected_check_digit := by
  induction l generalizing fuel i h with
  | nil =>
    obtain ⟨fuel, rfl⟩ : ∃ n, fuel = n + 1 := ⟨fuel - 1, by simp at hf; omega⟩
    have hi : i.rem = 43 :: 43 :: 13 :: 13 :: 10 :: r := hi
    refine ⟨i.skip_data_and_spaces 2, ?_, ?_, rfl, rfl⟩
    · have hc : i.check_available_data 1 = .ok () :=
        In.avail_ok (by rw [hi]; simp) (by decide)
      have hturn : Decoder.descTurn (i, h) = .out (.ok (i.skip_data_and_spaces 2, h)) := by
        unfold Decoder.descTurn
        simp only [In.peek_ok (i := i) (k := 0) (c := 43) (by rw [hi]; rfl),
          In.peek_ok (i := i) (k := 1) (c := 43) (by rw [hi]; rfl), hc, Res.ok_bind]
        rfl
      unfold Decoder.descLoop
      rw [hturn]
      simp
    · unfold In.skip_data_and_spaces
      rw [In.rem_skip, In.rem_adv, hi]
      rfl
  | cons c l ih =>
    obtain ⟨fuel, rfl⟩ : ∃ n, fuel = n + 1 := ⟨fuel - 1, by simp at hf; omega⟩
    have hc := hl c List.mem_cons_self
    obtain ⟨f, x1, x2, y1, y2, y3, hform, hlet, -⟩ := varcode_format_form c
    have hp := parseDescriptor_format hc
    rw [hform] at hp
    have hns : isSpace f = false := by rcases hlet with rfl | rfl | rfl | rfl <;> rfl
    have hi : i.rem = [f, x1, x2, y1, y2, y3] ++
        (l.flatMap (fun c => 32 :: crexDescriptor c) ++ (ascii "++\r\r\n" ++ r)) := by
      rw [hi, List.flatMap_cons, crexDescriptor_format hc, hform]
      simp only [List.cons_append]
      rw [List.dropWhile_cons_of_pos rfl, List.dropWhile_cons_of_neg (by rw [hns]; decide)]
      simp
    have hlen : ¬ i.data.length < i.cur + 6 := by
      have := In.rem_length i
      rw [hi] at this
      simp only [List.length_append, List.length_cons, List.length_nil] at this
      omega
    have hturn : Decoder.descTurn (i, h) =
        .again (i.skip_data_and_spaces 6, { h with datadesc := h.datadesc ++ [c] }) := by
      unfold Decoder.descTurn
      simp only [In.peek_ok (i := i) (k := 0) (c := f) (by rw [hi]; rfl), if_pos hlet, if_neg hlen]
      rw [show i.rem.take 6 = [f, x1, x2, y1, y2, y3] by rw [hi]; rfl, hp]
    unfold Decoder.descLoop
    rw [hturn]
    obtain ⟨j, h1, h2, h3, h4⟩ := ih (fun c hc => hl c (List.mem_cons_of_mem _ hc)) fuel
      (by simp at hf; omega) (i.skip_data_and_spaces 6) { h with datadesc := h.datadesc ++ [c] } (by
        unfold In.skip_data_and_spaces
        rw [In.rem_skip, In.rem_adv, hi]
        rfl)
    refine ⟨j, ?_, h2, h3, h4⟩
    simp only [h1]
    simp

/-- The start of a message is read. -/
theorem decodeStart_ok {h : Header} (hf : CrexHeaderFits h) (r : List Byte) :
    ∃ i, Decoder.decodeStart (crexStart h ++ r) = .ok (i, { crexReread h with datadesc := [] }) ∧
      i.rem = (h.datadesc.flatMap (fun c => 32 :: crexDescriptor c) ++
        (ascii "++\r\r\n" ++ r)).dropWhile isSpace ∧
      i.has_check_digit = false ∧ i.expected_check_digit = 0 := by
  obtain ⟨c, l, hcl⟩ : ∃ c l, h.datadesc = c :: l := by
    cases hd : h.datadesc with
    | nil => exact absurd hd hf.some
    | cons c l => exact ⟨c, l, rfl⟩
  obtain ⟨tail, htail⟩ : ∃ tail, h.datadesc.flatMap (fun c => 32 :: crexDescriptor c) ++
      (ascii "++\r\r\n" ++ r) = 32 :: tail := by rw [hcl]; exact ⟨_, rfl⟩
  have hdata : crexStart h ++ r = ascii "CREX++\r\r\n" ++ (84 :: (zeroPadded 2 h.master_table_number.toNat ++
      (zeroPadded 2 h.edition_number.toNat ++ zeroPadded 2 h.master_table_version_number.toNat)) ++
      32 :: (tableWord h ++ 32 :: tail)) := by
    rw [← htail]
    unfold crexStart tableWord
    rw [show ascii "CREX++\r\r\nT" = ascii "CREX++\r\r\n" ++ [84] from by decide +kernel,
      show ascii " A" = [32, 65] from by decide +kernel]
    simp only [List.append_assoc, List.cons_append, List.nil_append]
  rw [hdata]
  obtain ⟨W, hW⟩ : ∃ W, 84 :: (zeroPadded 2 h.master_table_number.toNat ++
      (zeroPadded 2 h.edition_number.toNat ++ zeroPadded 2 h.master_table_version_number.toNat)) = W :=
    ⟨_, rfl⟩
  have hWs : ∀ b ∈ W, isSpace b = false := by
    intro b hb
    rw [← hW] at hb
    simp only [List.mem_cons, List.mem_append] at hb
    rcases hb with rfl | hb | hb | hb
    · rfl
    all_goals exact zeroPadded_nospace _ _ b hb
  have hWn : ∀ b ∈ W, b ≠ 0 := by
    intro b hb
    rw [← hW] at hb
    simp only [List.mem_cons, List.mem_append] at hb
    rcases hb with rfl | hb | hb | hb
    · decide
    all_goals exact zeroPadded_nul _ _ b hb
  have hWl : W.length = 7 := by
    rw [← hW]
    simp only [List.length_cons, List.length_append, zeroPadded_length]
  have hWe := scanEdition_ok hf.table hf.edition hf.version
  rw [hW] at hWe ⊢
  have hTs : ∀ b ∈ tableWord h, isSpace b = false := by
    intro b hb
    unfold tableWord at hb
    simp only [List.mem_cons, List.mem_append] at hb
    rcases hb with rfl | hb | hb
    · rfl
    · exact zeroPadded_nospace _ _ b hb
    · split at hb
      · cases hb
      · exact zeroPadded_nospace _ _ b hb
  have hTl : (tableWord h).length < 20 := by
    unfold tableWord
    split <;> simp only [List.length_cons, List.length_append, zeroPadded_length, List.length_nil] <;> omega
  obtain ⟨data, hD⟩ : ∃ data, ascii "CREX++\r\r\n" ++ (W ++ 32 :: (tableWord h ++ 32 :: tail)) = data :=
    ⟨_, rfl⟩
  have hhead : W = 84 :: W.tail := by rw [← hW]; rfl
  have ht : tail.dropWhile isSpace = (h.datadesc.flatMap (fun c => 32 :: crexDescriptor c) ++
      (ascii "++\r\r\n" ++ r)).dropWhile isSpace := by
    rw [htail, List.dropWhile_cons_of_pos rfl]
  have htne : 0 < (tail.dropWhile isSpace).length := by
    rw [List.length_pos_iff, Ne, List.dropWhile_eq_nil_iff]
    intro hall
    have hm : (43 : Byte) ∈ tail := by
      have : (43 : Byte) ∈ (32 :: tail : List Byte) := by
        rw [← htail]
        exact List.mem_append_right _ (List.mem_append_left _ (by decide +kernel))
      simpa using this
    exact absurd (hall 43 hm) (by decide)
  rw [hD]
  have r0 : (In.new data).rem = data := rfl
  have r1 : ((In.new data).skip_data_and_spaces 6).rem = W ++ 32 :: (tableWord h ++ 32 :: tail) := by
    unfold In.skip_data_and_spaces
    rw [In.rem_skip, In.rem_adv, r0, ← hD, hhead]
    rfl
  obtain ⟨j, j1, j2, j3, j4⟩ := read_word_ok (n := 11) r1 hWs (by omega)
  have j2 : j.rem = tableWord h ++ 32 :: tail := by rw [j2]; rfl
  obtain ⟨k, k1, k2, k3, k4⟩ := read_word_ok (n := 20) j2 hTs hTl
  refine ⟨k, ?_, by rw [k2, ht], k3.trans j3, k4.trans j4⟩
  unfold Decoder.decodeStart
  have a1 : (In.new data).check_available_data 6 = .ok () :=
    In.avail_ok (by rw [r0, ← hD, List.length_append, show (ascii "CREX++\r\r\n").length = 9 from by
      decide +kernel]; omega) (by decide)
  have a2 : (In.new data).rem.take 6 = ascii "CREX++" := by rw [r0, ← hD]; rfl
  have a3 := In.eof_ok (i := (In.new data).skip_data_and_spaces 6) (by
    rw [r1, hhead]; simp)
  have a4 := In.peek_ok (i := (In.new data).skip_data_and_spaces 6) (k := 0) (c := 84) (by
    rw [r1, hhead]; rfl)
  have a5 := In.eof_ok (i := j) (by rw [j2]; simp [tableWord])
  have a6 := In.peek_ok (i := j) (k := 0) (c := 65) (by rw [j2]; rfl)
  have a7 := In.eof_ok (i := k) (by rw [k2]; exact htne)
  simp only [a1, a2, a3, a4, j1, a5, a6, k1, a7, takeWhile_nul hWn, hWe, scanATable_ok hf.category hf.subcategory,
    Res.ok_bind, ne_eq, not_true_eq_false, if_false, Res.pure_def]
  rfl

/-! ## The data -/

/-- The end of a message. -/
def messageEnd : List Byte := ascii "++\r\r\n7777\r\r\n"

theorem encode_ok (C : Ctx) {depth : Nat} {h : Header} {S : List Var} {caches : TableCaches}
    {text : List Byte} (hf : CrexHeaderFits h) (hS : Sound C.E S)
    (hm : CrexMatches C depth h.datadesc S caches text) :
    Encoder.encode C depth h [S] caches = .ok (crexMessage h text) := by
  have hstart : Encoder.encode_sec1 h ((Out.new []).raw_append (ascii "CREX++\r\r\n")) = crexStart h := by
    have hd : h.datadesc.flatMap Encoder.descriptor = h.datadesc.flatMap (fun c => 32 :: crexDescriptor c) := by
      rw [List.flatMap_def, List.flatMap_def]
      congr 1
      exact List.map_congr_left fun c hc => descriptor_eq (hf.codes c hc).1 (hf.codes c hc).2
    have hs : (if h.data_subcategory = 255 then [] else fmtHhd 3 h.data_subcategory) =
        (if h.data_subcategory = 255 then [] else zeroPadded 3 h.data_subcategory.toNat) := by
      split
      · rfl
      · next hne =>
        have := hf.subcategory.resolve_left hne
        exact fmtHhd_eq 3 _ this (by omega) (by decide)
    have h1 := hf.table
    have h2 := hf.edition
    have h3 := hf.version
    have h4 := hf.category
    unfold Encoder.encode_sec1 crexStart
    rw [hd, hs, fmtHhd_eq 2 _ (by omega) (by omega) (by decide), fmtHhd_eq 2 _ (by omega) (by omega) (by decide),
      fmtHhd_eq 2 _ (by omega) (by omega) (by decide), fmtHhd_eq 3 _ (by omega) (by omega) (by decide),
      show ascii "CREX++\r\r\nT" = ascii "CREX++\r\r\n" ++ ascii "T" from by decide +kernel]
    simp [Out.raw_append, Out.new]
  obtain ⟨st, h1, h2, h3, h4⟩ := hm
  obtain ⟨-, hsim⟩ := Interp.sim_run C (encSims C S hS (crexStart h)) depth h.datadesc _ st h1
  obtain ⟨t', r1, r2⟩ := hsim st.tgt (.new caches ⟨S, 0, ⟨crexStart h, false, 0⟩⟩) trivial
    ⟨⟨rfl, rfl, rfl, rfl, rfl, rfl, rfl, rfl, rfl, rfl⟩, rfl, rfl, rfl, rfl, by simp [Interp.new]⟩
  obtain ⟨q0, q1, q2, q3, q4, q5⟩ := r2
  have hsub : Encoder.encodeSubset C depth h.datadesc true S caches ⟨crexStart h, false, 0⟩ =
      .ok (t'.caches, t'.tgt.ob) := by
    unfold Encoder.encodeSubset
    simp only [if_true, r1, Res.ok_bind, Res.pure_def]
  unfold Encoder.encode
  simp only [hstart]
  show (Encoder.encodeSubsets C depth h.datadesc true [S] caches ⟨crexStart h, false, 0⟩ >>= _) = _
  unfold Encoder.encodeSubsets Encoder.encodeSubsets
  simp only [hsub, Res.ok_bind, Res.pure_def, Out.raw_append, q5, h3]
  unfold crexMessage
  rw [show ascii "++\r\r\n7777\r\r\n" = ascii "++\r\r\n" ++ ascii "7777\r\r\n" from by decide +kernel]
  simp

theorem decodeSubset_ok (C : Ctx) {depth : Nat} {datadesc : List Varcode} {S : List Var}
    {caches : TableCaches} {text : List Byte} (hS : Sound C.E S)
    (hm : CrexMatches C depth datadesc S caches text) {i : In}
    (hi : i.rem = (text ++ messageEnd).dropWhile isSpace) (hc : i.has_check_digit = false)
    (he : i.expected_check_digit = 0) :
    ∃ out cd' i', Decoder.decodeSubset C depth datadesc caches i = .ok (out, cd', true, i') ∧
      Copies out S ∧ i'.rem = ascii "\r\r\n7777\r\r\n" := by
  obtain ⟨st, h1, h2, h3, h4⟩ := hm
  obtain ⟨-, hsim⟩ := Interp.sim_run C (decSims C S hS messageEnd (by decide +kernel)
    (fun b h => by cases h; rfl)) depth datadesc _ st h1
  obtain ⟨t', r1, r2⟩ := hsim st.tgt (.new caches ⟨i, []⟩) (TextLe.refl _)
    ⟨⟨rfl, rfl, rfl, rfl, rfl, rfl, rfl, rfl, rfl, rfl⟩, rfl, h4, hc, by
      show i.expected_check_digit < 10
      rw [he]; decide, ⟨text, by rw [h3]; rfl, hi⟩, by simp [Interp.new], by simp [Interp.new]⟩
  obtain ⟨q0, q1, q2, q3, q4, ⟨w, w1, w2⟩, q5⟩ := r2
  have hw : w = [] := by
    have := congrArg List.length w1
    rw [List.length_append] at this
    exact List.length_eq_zero_iff.mp (by omega)
  subst hw
  have w2 : t'.tgt.input.rem = 43 :: 43 :: ascii "\r\r\n7777\r\r\n" := by rw [w2]; decide +kernel
  have w3 : t'.tgt.input.skip_spaces.rem = 43 :: 43 :: ascii "\r\r\n7777\r\r\n" := by
    rw [In.rem_skip, w2]; decide +kernel
  refine ⟨t'.tgt.out, t'.caches, (t'.tgt.input.skip_spaces.adv 1).adv 1, ?_, ?_, ?_⟩
  · unfold Decoder.decodeSubset
    rw [r1, Res.ok_bind]
    have hend : Decoder.subsetEnd t'.tgt.input = .ok (true, (t'.tgt.input.skip_spaces.adv 1).adv 1) := by
      unfold Decoder.subsetEnd
      have e1 := In.eof_ok (i := t'.tgt.input.skip_spaces) (by rw [w3]; simp)
      have e2 := In.peek_ok (i := t'.tgt.input.skip_spaces) (k := 0) (c := 43) (by rw [w3]; rfl)
      have e3 := In.eof_ok (i := t'.tgt.input.skip_spaces.adv 1) (by rw [In.rem_adv, w3]; simp)
      have e4 := In.peek_ok (i := t'.tgt.input.skip_spaces.adv 1) (k := 0) (c := 43) (by
        rw [In.rem_adv, w3]; rfl)
      simp only [e1, e2, e3, e4, Res.ok_bind, ne_eq, not_true_eq_false, if_false, if_true, Res.pure_def]
    rw [hend]
    rfl
  · rw [h2, List.take_length] at q5
    exact q5
  · rw [In.rem_adv, In.rem_adv, w3]
    rfl

theorem decodeEnd_ok {i : In} (h : i.rem = ascii "\r\r\n7777\r\r\n") : Decoder.decodeEnd i = .ok () := by
  have h1 : i.skip_spaces.rem = ascii "7777\r\r\n" := by rw [In.rem_skip, h]; decide +kernel
  have hl : i.skip_spaces.rem.length = 7 := by rw [h1]; decide +kernel
  have ht : i.skip_spaces.rem.take 4 = ascii "7777" := by rw [h1]; decide +kernel
  have hn : ¬ (ascii "7777" = ascii "SUPP") := by decide +kernel
  unfold Decoder.decodeEnd
  simp only [ht, if_neg hn, In.eof_ok (i := i.skip_spaces) (by omega),
    In.avail_ok (i := i.skip_spaces) (n := 4) (by omega) (by decide), Res.ok_bind, ne_eq, not_true_eq_false,
    if_false]

/-- C61, partially: a message with one subset, without check digits, is read back: the
text is the header and the fields of the variables, and decoding it gives a copy of
each variable. Missing: several subsets, which are not read back (see
`C61_not_subsets`), and what `CrexMatches` leaves out: associated fields, bitmaps and
substituted values, which are not implemented, and replication factors that are not
followed by a blank (see `C61_not_factor`). -/
theorem C61_message_partial (C : Ctx) (load : Header → Res (Ctx × TableCaches)) (depth : Nat)
    (h : Header) (S : List Var) (caches : TableCaches) (text : List Byte) (hf : CrexHeaderFits h)
    (hS : Sound C.E S) (hm : CrexMatches C depth h.datadesc S caches text)
    (hload : load (crexReread h) = .ok (C, caches)) :
    Encoder.encode C depth h [S] caches = .ok (crexMessage h text) ∧
    ∀ fuel, h.datadesc.length < fuel → ∃ out,
      Decoder.decode load depth fuel (crexMessage h text) = some (.ok (crexReread h, [out])) ∧
      Copies out S := by
  refine ⟨encode_ok C hf hS hm, fun fuel hfuel => ?_⟩
  have hmsg : crexMessage h text = crexStart h ++ (text ++ messageEnd) := by
    unfold crexMessage messageEnd
    rw [List.append_assoc]
  obtain ⟨i, i1, i2, i3, i4⟩ := decodeStart_ok hf (text ++ messageEnd)
  obtain ⟨j, j1, j2, j3, j4⟩ := descLoop_ok h.datadesc (fun c hc => (hf.codes c hc).1) _ fuel hfuel i
    { crexReread h with datadesc := [] } i2
  obtain ⟨out, cd, k, k1, k2, k3⟩ := decodeSubset_ok C hS hm j2 (j3.trans i3) (j4.trans i4)
  refine ⟨out, ?_, k2⟩
  have hj : 0 < j.rem.length := by
    rw [j2, List.length_pos_iff, Ne, List.dropWhile_eq_nil_iff]
    intro hall
    exact absurd (hall 43 (List.mem_append_right _ (by decide +kernel))) (by decide)
  obtain ⟨fuel, rfl⟩ : ∃ n, fuel = n + 1 := ⟨fuel - 1, by omega⟩
  unfold Decoder.decode Decoder.decode_header
  have j1 : Decoder.descLoop (fuel + 1) (i, { crexReread h with datadesc := [] }) =
    some (.ok (j, crexReread h)) := j1
  simp only [hmsg, i1, j1, hload, Decoder.decode_data, In.eof_ok hj]
  unfold Decoder.decodeSubsets
  have k1 : Decoder.decodeSubset C depth (crexReread h).datadesc caches j = .ok (out, cd, true, k) := k1
  simp only [k1, if_true, Option.map_some, Res.ok_bind, decodeEnd_ok k3, Res.pure_def]

/-! ## Samples -/

/-- B31012, a replication factor of five characters. -/
def crexFactor : Varinfo := made (Varinfo.raw (WR_VAR 0 31 12) .integer (ascii "NUMERIC") 0 5 0 16)

/-- The sample tables with that factor. -/
def crexCtx : Ctx :=
  { sampleCtx with btable := ⟨[sampleStr, sampleCode, sampleLat, sampleTemp, crexFactor].map fun i => ⟨i, []⟩⟩ }

/-- A header. -/
def crexHeader : Header where
  edition_number := 1
  master_table_number := 0
  master_table_version_number := 3
  master_table_version_number_bufr := 14
  data_category := 4
  data_subcategory := 7
  data_subcategory_local := 0
  has_check_digit := false
  datadesc := [WR_VAR 1 1 0, WR_VAR 3 1 1, WR_VAR 0 1 19]

/-- Values for its descriptors: one is missing. -/
def crexSubset : List Var :=
  [(Var.new crexFactor).putInt 2, tempVar 27315, codeVar 1, tempVar 5, Var.new sampleCode,
    nameVar "Somewhere else"]

/-- Their fields. -/
def crexFields : List Byte := ascii " 0002 27315 1 00005/ Somewhere else" ++ List.replicate 18 32

theorem crexSubset_matches :
    CrexMatches crexCtx 1 crexHeader.datadesc crexSubset noCaches crexFields := by
  have h : (do
      let st ← Interp.run crexCtx CrexWalk.target 1 crexHeader.datadesc
        (.new noCaches ⟨crexSubset, 0, [], false⟩)
      return (st.tgt.pos, st.tgt.text, st.tgt.pending)) = Res.ok (crexSubset.length, crexFields, false) := by
    decide +kernel
  obtain ⟨st, h1, h2⟩ := Res.bind_eq_ok.mp h
  simp only [Res.pure_def, Res.ok.injEq, Prod.mk.injEq] at h2
  exact ⟨st, h1, h2.1, h2.2.1, h2.2.2⟩

theorem crexSubset_sound : Sound crexCtx.E crexSubset := by
  have h1 : crexFactor.Made Env0 :=
    ⟨⟨Varinfo.raw (WR_VAR 0 31 12) .integer (ascii "NUMERIC") 0 5 0 16, rfl⟩, rfl, fun _ => rfl, nofun⟩
  intro v hv
  simp only [crexSubset, List.mem_cons, List.not_mem_nil, or_false] at hv
  rcases hv with rfl | rfl | rfl | rfl | rfl | rfl
  · exact ⟨⟨2, rfl, by decide⟩, h1⟩
  · exact ⟨⟨27315, rfl, by decide⟩, sampleTemp_made⟩
  · exact ⟨⟨1, rfl, by decide⟩, sampleCode_made⟩
  · exact ⟨⟨5, rfl, by decide⟩, sampleTemp_made⟩
  · exact ⟨⟨0, rfl, by decide⟩, sampleCode_made⟩
  · exact ⟨Or.inr ⟨_, rfl, by decide +kernel, fun _ => ⟨ascii "Somewhere else", by decide +kernel⟩⟩,
      sampleStr_made⟩

/-- The hypotheses of C61 are met. -/
example : CrexHeaderFits crexHeader ∧ Sound crexCtx.E crexSubset ∧
    CrexMatches crexCtx 1 crexHeader.datadesc crexSubset noCaches crexFields :=
  ⟨⟨by decide, by decide, by decide, by decide, by decide, by decide, by decide +kernel⟩,
    crexSubset_sound, crexSubset_matches⟩

example : crexMessage crexHeader crexFields =
    ascii "CREX++\r\r\nT000103 A004007 R01000 D01001 B01019++\r\r\n 0002 27315 1 00005/ Somewhere else" ++
      List.replicate 18 32 ++ ascii "++\r\r\n7777\r\r\n" := by
  decide +kernel

/-- What subsets become after encoding and decoding. -/
def roundTrip (h : Header) (subsets : List (List Var)) :
    Option (Res (Header × List (List (Option Value)))) :=
  match Encoder.encode crexCtx 1 h subsets noCaches with
  | .ok msg => (Decoder.decode (fun _ => .ok (crexCtx, noCaches)) 1 100 msg).map fun r => do
    let r ← r
    return (r.1, r.2.map (·.map (·.toVarCore.view)))
  | .err e => some (.err e)
  | .ub => some .ub

/-- The sample survives. -/
example : roundTrip crexHeader [crexSubset] =
    some (.ok (crexReread crexHeader, [crexSubset.map (·.toVarCore.view)])) := by
  decide +kernel

/-- C61 fails for two subsets: after the mark between them the line end is taken as
part of the first value, and here the first value of the second subset ends with the
first digits of its second. -/
theorem C61_not_subsets :
    roundTrip { crexHeader with datadesc := [WR_VAR 0 12 101, WR_VAR 0 12 101] }
      [[tempVar 27315, tempVar 27320], [tempVar 27325, tempVar 27330]] = some (.err .parse) := by
  decide +kernel

/-- C61 fails for a replication factor followed by missing values: the first slash is
taken as part of the factor, and half of the end mark as part of the last value. -/
theorem C61_not_factor :
    roundTrip { crexHeader with datadesc := [WR_VAR 1 1 0, WR_VAR 0 12 101, WR_VAR 0 12 101] }
      [[(Var.new crexFactor).putInt 1, Var.new sampleTemp, Var.new sampleTemp]] = some (.err .parse) := by
  decide +kernel

/-- C61 fails for a replication factor at the end: half of the end mark is taken as
part of it. -/
theorem C61_not_last_factor :
    roundTrip { crexHeader with datadesc := [WR_VAR 1 1 0, WR_VAR 0 12 101] }
      [[(Var.new crexFactor).putInt 0]] = some (.err .parse) := by
  decide +kernel

/-- C61 fails for a subcategory above 127: it is written as a negative number, and both
categories come back different. -/
theorem C61_not_subcategory :
    roundTrip { crexHeader with data_subcategory := 250, datadesc := [WR_VAR 0 12 101] }
      [[tempVar 5]] =
      some (.ok ({ crexReread crexHeader with data_category := 0, data_subcategory := 4, datadesc := [WR_VAR 0 12 101] },
        [[some (.num 5)]])) := by
  decide +kernel

/-- C61 fails without descriptors: the end mark is taken as part of the categories. -/
theorem C61_not_empty : roundTrip { crexHeader with datadesc := [] } [[]] = some (.err .consistency) := by
  decide +kernel

end Wreport.Crex
