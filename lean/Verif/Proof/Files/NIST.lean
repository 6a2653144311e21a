import Verif.Proof.Files.SampleVision
import Verif.Model.Files.NIST
/-!
# NIST SPHERE: proofs
-/
namespace AF.Files
open AF AF.Setup AF.Spec.Files

/-! ## Numbers as text -/

theorem digits_ne (n : Nat) : digits n ≠ [] := by
  unfold digits; split <;> simp

theorem digit_toNat (k : Nat) (h : k < 10) : (BitVec.ofNat 8 (48 + k)).toNat = 48 + k := by
  rw [BitVec.toNat_ofNat]; omega

theorem digits_digit (n : Nat) : ∀ b ∈ digits n, isDigit b = true := by
  induction n using Nat.strongRecOn with
  | _ n ih =>
    unfold digits
    split
    · rename_i h
      intro b hb
      rw [List.mem_singleton.1 hb]
      simp only [isDigit, digit_toNat n h]
      simp; omega
    · rename_i h
      intro b hb
      rcases List.mem_append.1 hb with hb | hb
      · exact ih (n / 10) (by omega) b hb
      · rw [List.mem_singleton.1 hb]
        simp only [isDigit, digit_toNat (n % 10) (by omega)]
        simp; omega

theorem digitsValue_append (a : List Byte) (b : Byte) :
    digitsValue (a ++ [b]) = 10 * digitsValue a + (b.toNat - 48) := by
  simp [digitsValue, List.foldl_append]

theorem digitsValue_digits (n : Nat) : digitsValue (digits n) = n := by
  induction n using Nat.strongRecOn with
  | _ n ih =>
    unfold digits
    split
    · rename_i h
      simp only [digitsValue, List.foldl_cons, List.foldl_nil, digit_toNat n h]; omega
    · rename_i h
      rw [digitsValue_append, ih (n / 10) (by omega), digit_toNat (n % 10) (by omega)]
      omega

theorem digits_length (k n : Nat) (hk : 0 < k) (hn : n < 10 ^ k) : (digits n).length ≤ k := by
  induction k generalizing n with
  | zero => omega
  | succ k ih =>
    unfold digits
    split
    · simp
    · rename_i h
      have hk0 : 0 < k := by
        rcases Nat.eq_zero_or_pos k with hk0 | hk0
        · subst hk0; simp at hn; omega
        · exact hk0
      have := ih (n / 10) hk0 (by rw [Nat.pow_succ] at hn; exact Nat.div_lt_of_lt_mul (by omega))
      simp; omega

theorem isDigit_not_space {b : Byte} (h : isDigit b = true) : isSpace b = false ∧ b ≠ 45 ∧ b ≠ 43 ∧ b ≠ 0 ∧ b ≠ 10 := by
  simp only [isDigit, isSpace, Bool.and_eq_true, decide_eq_true_eq] at h ⊢
  refine ⟨?_, ?_, ?_, ?_, ?_⟩
  · simp only [Bool.or_eq_false_iff, decide_eq_false_iff_not, Bool.and_eq_false_iff]
    refine ⟨?_, .inr (by omega)⟩
    intro hb; subst hb; simp at h
  all_goals
    intro hb; subst hb; simp at h

theorem digits_head (n : Nat) : ∃ b s, digits n = b :: s ∧ isDigit b = true := by
  have h := digits_ne n
  cases hd : digits n with
  | nil => exact absurd hd h
  | cons b s => exact ⟨b, s, rfl, digits_digit n b (by rw [hd]; simp)⟩

theorem takeWhile_digits (n : Nat) {c : Byte} (hc : isDigit c = false) (rest : List Byte) :
    (digits n ++ c :: rest).takeWhile isDigit = digits n ∧ (digits n ++ c :: rest).dropWhile isDigit = c :: rest := by
  rw [List.takeWhile_append_of_pos (digits_digit n), List.dropWhile_append_of_pos (digits_digit n)]
  simp [hc]

theorem scanInt_print {x : Int} (hlo : -2 ^ 31 ≤ x) (hhi : x < 2 ^ 31) {c : Byte} (hc : isDigit c = false)
    (rest : List Byte) :
    scanInt (printInt x ++ c :: rest) = .int x (c :: rest) ∧ scanInt (32 :: printInt x ++ c :: rest) = .int x (c :: rest) := by
  have hsp : ∀ s, scanInt (32 :: s) = scanInt s := by
    intro s
    unfold scanInt
    rw [List.dropWhile_cons_of_pos (by decide)]
  have hmain : scanInt (printInt x ++ c :: rest) = .int x (c :: rest) := by
    unfold printInt
    by_cases hx : x < 0
    · rw [if_pos hx]
      unfold scanInt
      rw [List.cons_append, List.dropWhile_cons_of_neg (by decide)]
      obtain ⟨h1, h2⟩ := takeWhile_digits x.natAbs hc rest
      have hm : takeSign (45 :: (digits x.natAbs ++ c :: rest)) = (true, digits x.natAbs ++ c :: rest) := rfl
      dsimp only
      rw [hm]
      simp only [if_true, h1, h2, digits_ne, if_false, digitsValue_digits]
      rw [if_neg (by omega)]
      congr 1
      omega
    · rw [if_neg hx]
      unfold scanInt
      obtain ⟨b, s, hb, hd⟩ := digits_head x.toNat
      obtain ⟨q1, q2, q3, -⟩ := isDigit_not_space hd
      obtain ⟨h1, h2⟩ := takeWhile_digits x.toNat hc rest
      have h0 : (digits x.toNat ++ c :: rest).dropWhile isSpace = digits x.toNat ++ c :: rest := by
        rw [hb, List.cons_append, List.dropWhile_cons_of_neg (by simp [q1])]
      rw [h0]
      have hm : takeSign (digits x.toNat ++ c :: rest) = (false, digits x.toNat ++ c :: rest) := by
        rw [hb, List.cons_append]
        show (if b = 45 then _ else if b = 43 then _ else _) = _
        rw [if_neg q2, if_neg q3]
      dsimp only
      rw [hm]
      simp only [ h1, h2, digits_ne, if_false, digitsValue_digits]
      have hv : ((x.toNat : Nat) : Int) = x := by omega
      simp only [Bool.false_eq_true, if_false, hv]
      rw [if_neg (by omega)]
  exact ⟨hmain, by rw [List.cons_append, hsp]; exact hmain⟩

/-- Bytes that are neither zero nor a new line. -/
def plain (b : Byte) : Bool := b ≠ 0 && b ≠ 10

theorem printInt_plain (x : Int) : ∀ b ∈ printInt x, plain b = true := by
  have hd : ∀ n, ∀ b ∈ digits n, plain b = true := by
    intro n b hb
    obtain ⟨-, -, -, h4, h5⟩ := isDigit_not_space (digits_digit n b hb)
    unfold plain
    rw [decide_eq_true h4, decide_eq_true h5]; rfl
  unfold printInt
  split
  · intro b hb
    rcases List.mem_cons.1 hb with rfl | hb
    · decide
    · exact hd _ b hb
  · exact hd _

theorem printInt_length {x : Int} (hlo : -2 ^ 31 ≤ x) (hhi : x < 2 ^ 31) : (printInt x).length ≤ 11 := by
  unfold printInt
  split
  · have := digits_length 10 x.natAbs (by omega) (by omega)
    simp; omega
  · have := digits_length 10 x.toNat (by omega) (by omega)
    omega

/-! ## Finding a line -/

/-- `k` differs from `a` at some place they both have. -/
def diverge (k a : List Byte) : Bool := (k.zip a).any fun p => p.1 != p.2

theorem diverge_prefix {k a : List Byte} (h : diverge k a = true) (b : List Byte) : k.isPrefixOf (a ++ b) = false := by
  induction k generalizing a with
  | nil => simp [diverge] at h
  | cons x k ih =>
    cases a with
    | nil => simp [diverge] at h
    | cons y a =>
      simp only [diverge, List.zip_cons_cons, List.any_cons, Bool.or_eq_true, bne_iff_ne] at h
      rw [List.cons_append, List.isPrefixOf_cons₂]
      by_cases hxy : x = y
      · have := ih (a := a) (by
          rcases h with h | h
          · exact absurd hxy h
          · exact h)
        rw [this]; simp
      · simp [hxy]

theorem find_skip (k : List Byte) : ∀ (pre rest : List Byte), (∀ b ∈ pre, plain b = true) →
    findAfter (10 :: k) (pre ++ 10 :: rest) =
      if k.isPrefixOf rest then some (rest.drop k.length) else findAfter (10 :: k) rest
  | [], rest, _ => by
    rw [List.nil_append, findAfter]
    simp
  | b :: pre, rest, h => by
    have hb : ¬ (10 : Byte) = b := by
      have := h b (by simp)
      intro he; subst he; simp [plain] at this
    rw [List.cons_append, findAfter, List.isPrefixOf_cons₂]
    have : ((10 : Byte) == b) = false := beq_false_of_ne hb
    rw [this, Bool.false_and, if_neg (by simp)]
    exact find_skip k pre rest fun b hb => h b (by simp [hb])

/-- Lines, each a key and a value. -/
def body : List (List Byte × List Byte) → List Byte
  | [] => []
  | (k, v) :: ls => k ++ v ++ 10 :: body ls

theorem find_line (K : List Byte) : ∀ (before : List (List Byte × List Byte)) (pre v rest : List Byte),
    (∀ b ∈ pre, plain b = true) →
    (∀ p ∈ before, diverge K p.1 = true ∧ (∀ b ∈ p.1, plain b = true) ∧ ∀ b ∈ p.2, plain b = true) →
    findAfter (10 :: K) (pre ++ 10 :: (body before ++ (K ++ v ++ rest))) = some (v ++ rest)
  | [], pre, v, rest, hp, _ => by
    rw [find_skip K pre _ hp, body, List.nil_append, List.append_assoc]
    rw [if_pos (by rw [List.isPrefixOf_iff_prefix]; exact List.prefix_append _ _), List.drop_left]
  | (k, w) :: ls, pre, v, rest, hp, h => by
    obtain ⟨h1, h2, h3⟩ := h (k, w) (by simp)
    rw [find_skip K pre _ hp]
    have e : body ((k, w) :: ls) ++ (K ++ v ++ rest) = (k ++ w) ++ 10 :: (body ls ++ (K ++ v ++ rest)) := by
      simp [body, List.append_assoc]
    rw [if_neg, e]
    · exact find_line K ls (k ++ w) v rest (by
        intro b hb
        rcases List.mem_append.1 hb with hb | hb
        · exact h2 b hb
        · exact h3 b hb) fun p hp => h p (by simp [hp])
    · rw [e, List.append_assoc k, diverge_prefix h1]; simp

/-! ## The header -/

/-- The lines behind the first one. -/
def nlines (t : Trk) : List (List Byte × List Byte) :=
  [(tag "   1024", []),
   (tag "channel_count -i", 32 :: printInt t.f.channels),
   (tag "sample_count -i", 32 :: printInt (wrapS 32 t.frames)),
   (tag "sample_rate -i", 32 :: printInt (toUnsigned t.f.rate)),
   (tag "sample_n_bytes -i", 32 :: printInt (nistBytes t.f)),
   (tag "sample_byte_format -s", printInt (nistBytes t.f) ++ 32 :: nistByteFormat t.f),
   (tag "sample_sig_bits -i", 32 :: printInt t.f.sampleWidth),
   (tag "sample_coding -s", printInt (nistCoding t.f).length ++ 32 :: nistCoding t.f)]

theorem nistText_eq (t : Trk) : nistText t = tag "NIST_1A" ++ 10 :: (body (nlines t) ++ tag "end_head\n") := by
  have e0 : nistMagic = tag "NIST_1A" ++ 10 :: (tag "   1024" ++ [10]) := by decide +kernel
  have e1 : tag "channel_count -i " = tag "channel_count -i" ++ [32] := by decide +kernel
  have e2 : tag "sample_count -i " = tag "sample_count -i" ++ [32] := by decide +kernel
  have e3 : tag "sample_rate -i " = tag "sample_rate -i" ++ [32] := by decide +kernel
  have e4 : tag "sample_n_bytes -i " = tag "sample_n_bytes -i" ++ [32] := by decide +kernel
  have e5 : tag "sample_sig_bits -i " = tag "sample_sig_bits -i" ++ [32] := by decide +kernel
  unfold nistText
  rw [e0, e1, e2, e3, e4, e5]
  simp only [nlines, body, List.append_assoc, List.cons_append, List.nil_append]

theorem nistCoding_plain (f : AFmt) : (∀ b ∈ nistCoding f, plain b = true) ∧ (nistCoding f).length ≤ 4 := by
  unfold nistCoding
  repeat' split
  all_goals exact ⟨by decide +kernel, by decide +kernel⟩

theorem nistByteFormat_plain (f : AFmt) : (∀ b ∈ nistByteFormat f, plain b = true) ∧ (nistByteFormat f).length ≤ 2 := by
  unfold nistByteFormat
  repeat' split
  all_goals exact ⟨by decide +kernel, by decide +kernel⟩

theorem nlines_plain (t : Trk) : ∀ p ∈ nlines t, (∀ b ∈ p.1, plain b = true) ∧ ∀ b ∈ p.2, plain b = true := by
  have hp := fun x => printInt_plain x
  have h32 : ∀ x : Int, ∀ b ∈ 32 :: printInt x, plain b = true := by
    intro x b hb
    rcases List.mem_cons.1 hb with rfl | hb
    · decide
    · exact hp x b hb
  have hw : ∀ (x : Int) (s : List Byte), (∀ b ∈ s, plain b = true) → ∀ b ∈ printInt x ++ 32 :: s, plain b = true := by
    intro x s hs b hb
    rcases List.mem_append.1 hb with hb | hb
    · exact hp x b hb
    · rcases List.mem_cons.1 hb with rfl | hb
      · decide
      · exact hs b hb
  intro p hpm
  simp only [nlines, List.mem_cons, List.not_mem_nil, or_false] at hpm
  rcases hpm with rfl | rfl | rfl | rfl | rfl | rfl | rfl | rfl
  · exact ⟨(show ∀ b ∈ tag "   1024", plain b = true by decide +kernel), by simp⟩
  · exact ⟨(show ∀ b ∈ tag "channel_count -i", plain b = true by decide +kernel), h32 _⟩
  · exact ⟨(show ∀ b ∈ tag "sample_count -i", plain b = true by decide +kernel), h32 _⟩
  · exact ⟨(show ∀ b ∈ tag "sample_rate -i", plain b = true by decide +kernel), h32 _⟩
  · exact ⟨(show ∀ b ∈ tag "sample_n_bytes -i", plain b = true by decide +kernel), h32 _⟩
  · exact ⟨(show ∀ b ∈ tag "sample_byte_format -s", plain b = true by decide +kernel), hw _ _ (nistByteFormat_plain _).1⟩
  · exact ⟨(show ∀ b ∈ tag "sample_sig_bits -i", plain b = true by decide +kernel), h32 _⟩
  · exact ⟨(show ∀ b ∈ tag "sample_coding -s", plain b = true by decide +kernel), hw _ _ (nistCoding_plain _).1⟩

theorem body_nonzero : ∀ (ls : List (List Byte × List Byte)),
    (∀ p ∈ ls, (∀ b ∈ p.1, plain b = true) ∧ ∀ b ∈ p.2, plain b = true) → 0 ∉ body ls
  | [], _ => by simp [body]
  | (k, v) :: ls, h => by
    have ih := body_nonzero ls fun p hp => h p (by simp [hp])
    obtain ⟨h1, h2⟩ := h (k, v) (by simp)
    intro hm
    simp only [body, List.mem_append, List.mem_cons] at hm
    rcases hm with (hm | hm) | hm | hm
    · have := h1 0 hm; simp [plain] at this
    · have := h2 0 hm; simp [plain] at this
    · exact absurd hm (by decide)
    · exact ih hm

theorem nistHeader_nonzero (t : Trk) : 0 ∉ nistHeader t := by
  intro hm
  unfold nistHeader at hm
  rw [nistText_eq] at hm
  simp only [List.mem_append, List.mem_cons] at hm
  rcases hm with (hm | hm | hm | hm) | hm
  · revert hm; decide +kernel
  · exact absurd hm (by decide)
  · exact body_nonzero _ (nlines_plain t) hm
  · revert hm; decide +kernel
  · have := (List.mem_replicate.1 hm).2
    exact absurd this (by decide)

theorem cstring_eq {l : List Byte} (h : 0 ∉ l) : cstring l = l := by
  unfold cstring
  induction l with
  | nil => rfl
  | cons b l ih =>
    have hb : b ≠ 0 := by intro he; apply h; simp [he]
    rw [List.takeWhile_cons_of_pos (p := fun x : Byte => decide (x ≠ 0)) (decide_eq_true hb), ih (fun hm => h (List.mem_cons_of_mem _ hm))]

/-- The numbers in the header are `int`s. -/
structure NistInts (t : Trk) : Prop where
  channels : -2 ^ 31 ≤ t.f.channels ∧ t.f.channels < 2 ^ 31
  rate : -2 ^ 31 ≤ toUnsigned t.f.rate ∧ toUnsigned t.f.rate < 2 ^ 31
  bytes : -2 ^ 31 ≤ nistBytes t.f ∧ nistBytes t.f < 2 ^ 31
  width : -2 ^ 31 ≤ t.f.sampleWidth ∧ t.f.sampleWidth < 2 ^ 31

theorem wrap32_range (x : Int) : -2 ^ 31 ≤ wrapS 32 x ∧ wrapS 32 x < 2 ^ 31 := by
  unfold wrapS
  have h1 := Int.le_bmod (x := x) (m := 2 ^ 32) (by decide)
  have h2 := Int.bmod_lt (x := x) (m := 2 ^ 32) (by decide)
  omega

theorem nistText_length {t : Trk} (hi : NistInts t) : (nistText t).length < 1024 := by
  have l1 := printInt_length hi.channels.1 hi.channels.2
  have l2 := printInt_length (wrap32_range t.frames).1 (wrap32_range t.frames).2
  have l3 := printInt_length hi.rate.1 hi.rate.2
  have l4 := printInt_length hi.bytes.1 hi.bytes.2
  have l5 := printInt_length hi.width.1 hi.width.2
  have l6 := (nistByteFormat_plain t.f).2
  have l7 := (nistCoding_plain t.f).2
  have l8 : (printInt (nistCoding t.f).length).length ≤ 11 := printInt_length (by omega) (by omega)
  have t0 : nistMagic.length = 16 := by decide +kernel
  have t1 : (tag "channel_count -i ").length = 17 := by decide +kernel
  have t2 : (tag "sample_count -i ").length = 16 := by decide +kernel
  have t3 : (tag "sample_rate -i ").length = 15 := by decide +kernel
  have t4 : (tag "sample_n_bytes -i ").length = 18 := by decide +kernel
  have t5 : (tag "sample_byte_format -s").length = 21 := by decide +kernel
  have t6 : (tag "sample_sig_bits -i ").length = 19 := by decide +kernel
  have t7 : (tag "sample_coding -s").length = 16 := by decide +kernel
  have t8 : (tag "end_head\n").length = 9 := by decide +kernel
  unfold nistText
  simp only [List.length_append, List.length_singleton, t0, t1, t2, t3, t4, t5, t6, t7, t8]
  omega

theorem nistHeader_length {t : Trk} (hi : NistInts t) : (nistHeader t).length = 1024 := by
  have := nistText_length hi
  unfold nistHeader
  rw [List.length_append, List.length_replicate]; omega

/-- Each lookup in the header. -/
theorem nist_lookup (t : Trk) (before after : List (List Byte × List Byte)) (K v : List Byte)
    (hl : nlines t = before ++ (K, v) :: after) (hd : ∀ p ∈ before, diverge K p.1 = true) :
    ∃ rest, findAfter (10 :: K) (nistHeader t) = some (v ++ 10 :: rest) := by
  have hb : ∀ (a b : List (List Byte × List Byte)), body (a ++ b) = body a ++ body b := by
    intro a b
    induction a with
    | nil => rfl
    | cons p a ih => obtain ⟨x, y⟩ := p; simp [body, ih]
  have e : nistHeader t = tag "NIST_1A" ++ 10 :: (body before ++ (K ++ v ++ (10 :: (body after ++ (tag "end_head\n" ++
      List.replicate (1024 - (nistText t).length) 32))))) := by
    have e0 : nistHeader t = tag "NIST_1A" ++ 10 :: (body (nlines t) ++ tag "end_head\n") ++
      List.replicate (1024 - (nistText t).length) 32 := by
      rw [← nistText_eq]; rfl
    rw [e0, hl, hb]
    simp only [body, List.append_assoc, List.cons_append]
  rw [e]
  refine ⟨_, find_line K before _ v _ (by decide +kernel) fun p hp => ?_⟩
  obtain ⟨h1, h2⟩ := nlines_plain t p (by rw [hl]; simp [hp])
  exact ⟨hd p hp, h1, h2⟩

/-- A file whose header is written anew at each synchronisation. -/
theorem header_file (hdr : Trk → List Byte) (N : Nat) (f : AFmt) (hl : ∀ t : Trk, t.f = f → (hdr t).length = N) (t0 : Trk)
    (h0 : t0.f = f) (h00 : t0.frames = 0) (h01 : t0.first = N) (h02 : t0.dataSize = 0) (evs : List Ev) :
    ∃ t : Trk, t.f = f ∧ t.frames = framesOf evs ∧
      session (fun t (x : Unit) d => ((d.seek 0).write (hdr t), x)) ((⟨hdr t0, N⟩ : Disk), t0, ()) evs
        = hdr t ++ dataOf evs := by
  have hup : ∀ (d : Disk) (H D : List Byte) (t : Trk), t.f = f → H.length = N → d.bytes = H ++ D →
      ((d.seek 0).write (hdr t)).bytes = hdr t ++ D := by
    intro d H D t ht hH hd
    rw [Disk.write_zero, hd, hl t ht, List.drop_left' hH]
  obtain ⟨d, t, x, ⟨hf, hfr, h1, hs, H, hH, hd⟩, he⟩ := session_induct (fun t (x : Unit) d => ((d.seek 0).write (hdr t), x))
    (fun d t _ D n => t.f = f ∧ t.frames = n ∧ t.first = N ∧ t.dataSize = D.length ∧
      ∃ H, H.length = N ∧ d.bytes = H ++ D)
    ((⟨hdr t0, N⟩ : Disk), t0, ()) evs
    ⟨h0, h00, h01, h02, hdr t0, hl t0 h0, by simp⟩
    (by
      rintro d t x D n bs k - ⟨hf, hfr, h1, hs, H, hH, hd⟩
      refine ⟨hf, by dsimp only; rw [hfr]; simp, h1, by dsimp only; rw [hs]; simp, H, hH, ?_⟩
      rw [Disk.write_end]
      · dsimp only [Disk.seek_bytes]; rw [hd, List.append_assoc]
      · dsimp only [Disk.seek_pos, Disk.seek_bytes]
        rw [h1, hs, hd, List.length_append, hH]; omega)
    (by
      rintro d t x D n ⟨hf, hfr, h1, hs, H, hH, hd⟩
      exact ⟨hf, hfr, h1, hs, _, hl { t with afterData := d.pos } hf, hup d H D _ hf hH hd⟩)
  refine ⟨{ t with afterData := d.pos }, hf, hfr, ?_⟩
  rw [he]
  exact hup d H _ _ hf hH hd

/-- The file a session leaves. -/
theorem nist_file (f : AFmt) (hi : ∀ t : Trk, t.f = f → NistInts t) (hdef : nistDefined f = true) (evs : List Ev) :
    ∃ (s : Disk × Trk × Unit) (t : Trk), nistInit f = some s ∧ t.f = f ∧ t.frames = framesOf evs ∧
      session nistUpdate s evs = nistHeader t ++ dataOf evs := by
  have hl : ∀ t : Trk, t.f = f → (nistHeader t).length = 1024 := fun t ht => nistHeader_length (hi t ht)
  have hu : nistUpdate = fun t (x : Unit) d => ((d.seek 0).write (nistHeader t), x) := by
    funext t x d; rfl
  unfold nistInit
  rw [hu]
  generalize nistHeader = hdr at *
  obtain ⟨t, h1, h2, h3⟩ := header_file hdr 1024 f hl { Trk.ofFormat f with first := 1024 } rfl rfl rfl rfl evs
  refine ⟨_, t, if_pos hdef, h1, h2, ?_⟩
  have e : ((⟨[], 0⟩ : Disk).seek 0).write (hdr { Trk.ofFormat f with first := 1024 }) =
      (⟨hdr { Trk.ofFormat f with first := 1024 }, 1024⟩ : Disk) := by
    have k := Disk.write_zero (d := (⟨[], 0⟩ : Disk)) (bs := hdr { Trk.ofFormat f with first := 1024 })
    have k2 : (((⟨[], 0⟩ : Disk).seek 0).write (hdr { Trk.ofFormat f with first := 1024 })).pos = 1024 := by
      rw [Disk.write_pos, Disk.seek_pos, hl _ rfl]
    generalize ((⟨[], 0⟩ : Disk).seek 0).write (hdr { Trk.ofFormat f with first := 1024 }) = d at *
    cases d
    simp at k k2
    rw [k, k2]
  rw [e]
  exact h3

theorem nistInt_ok {text key : List Byte} {x : Int} {rest : List Byte} (cur : Option Int) (hlo : -2 ^ 31 ≤ x) (hhi : x < 2 ^ 31)
    (hf : findAfter key text = some (32 :: printInt x ++ 10 :: rest)) (file : List Byte) (p : Nat) :
    nistInt text key cur file p = .ok (some (some x), p) := by
  unfold nistInt
  rw [hf]
  dsimp only
  rw [(scanInt_print hlo hhi (by decide) rest).2]
  rfl

theorem nistString_ok {text key w : List Byte} {x : Int} {rest : List Byte} (cur : Option Int × Option (List Byte))
    (hlo : -2 ^ 31 ≤ x) (hhi : x < 2 ^ 31) (hf : findAfter key text = some (printInt x ++ 32 :: (w ++ 10 :: rest)))
    (hw : ∀ b ∈ w, isSpace b = false) (hne : w ≠ []) (hl : w.length ≤ 79) (file : List Byte) (p : Nat) :
    nistString text key cur file p = .ok (some (some x, some w), p) := by
  unfold nistString
  rw [hf]
  dsimp only
  rw [(scanInt_print hlo hhi (by decide) _).1]
  dsimp only
  have : scanWord (32 :: (w ++ 10 :: rest)) = some w := by
    unfold scanWord
    dsimp only
    rw [List.dropWhile_cons_of_pos (by decide)]
    cases w with
    | nil => exact absurd rfl hne
    | cons b w =>
      rw [List.cons_append, List.dropWhile_cons_of_neg (by simp [hw b (by simp)]), ← List.cons_append,
        List.takeWhile_append_of_pos (fun a ha => by simp [hw a ha]), List.takeWhile_cons_of_neg (by decide), List.append_nil,
        List.take_of_length_le hl, if_neg (by simp)]
  rw [this]
  rfl

/-- What the reader reports about a file with the header of `t` and the data `D`. -/
structure NistGood (h' : Endian) (t : Trk) (D : List Byte) (u : Trk) : Prop where
  rate : u.f.rate = (toUnsigned t.f.rate : Rat)
  channels : u.f.channels = t.f.channels
  compression : u.f.compression = (if t.f.compression = NONE ∧ nistBytes t.f = 1 then ULAW else t.f.compression)
  format : u.f.sampleFormat = TWOSCOMP
  width : u.f.sampleWidth = (if t.f.compression = NONE ∧ nistBytes t.f = 2 ∧ (t.f.sampleWidth + 7).tdiv 8 = 2 then
    t.f.sampleWidth else 16)
  order : nistBytes t.f = 2 → t.f.byteOrder = BIG ∨ t.f.byteOrder = LITTLE → u.f.byteOrder = t.f.byteOrder
  machine : nistBytes t.f = 1 → u.f.byteOrder = native h'
  first : u.first = 1024
  size : u.dataSize = D.length
  frames : u.frames = wrapS 32 t.frames

/-- The outcome of opening such a file. -/
def NistOutcome (h' : Endian) (t : Trk) (D : List Byte) (X : Except Err (Trk × Nat)) : Prop :=
  (0 < toUnsigned t.f.rate → ∃ u p, X = .ok (u, p) ∧ NistGood h' t D u) ∧ (toUnsigned t.f.rate ≤ 0 → X = .error .fail)

theorem Rd.step {α β : Type} {m : Rd α} {g : α → Rd β} {file : List Byte} {p : Nat} (P : α → Prop)
    (Q : Except Err (β × Nat) → Prop) (h1 : ∃ a, m file p = .ok (a, p) ∧ P a) (h2 : ∀ a, P a → Q (g a file p)) :
    Q ((m >>= g) file p) := by
  obtain ⟨a, h3, h4⟩ := h1
  rw [Rd.bind_ok h3]
  exact h2 a h4

/-- NIST: what the reader makes of a header. -/
theorem nist_read (h' : Endian) (t : Trk) (hi : NistInts t) (hb : nistBytes t.f = 1 ∨ nistBytes t.f = 2)
    (hch : 1 ≤ t.f.channels) (hw : 1 ≤ t.f.sampleWidth ∧ t.f.sampleWidth ≤ 32) 
    (hc : t.f.compression ∈ [0, 502, 503]) (D : List Byte) :
    NistOutcome h' t D (nistRead h' (nistHeader t ++ D) 0) := by
  have k1 : keyChannels = 10 :: tag "channel_count -i" := by decide +kernel
  have k2 : keyBytes = 10 :: tag "sample_n_bytes -i" := by decide +kernel
  have k3 : keyCoding = 10 :: tag "sample_coding -s" := by decide +kernel
  have k4 : keyOrder = 10 :: tag "sample_byte_format -s" := by decide +kernel
  have k5 : keyBits = 10 :: tag "sample_sig_bits -i" := by decide +kernel
  have k6 : keyRate = 10 :: tag "sample_rate -i" := by decide +kernel
  have k7 : keyCount = 10 :: tag "sample_count -i" := by decide +kernel
  obtain ⟨r1, l1⟩ := nist_lookup t [(tag "   1024", [])] _ (tag "channel_count -i") (32 :: printInt t.f.channels) rfl (by
    intro p hp
    simp only [List.mem_cons, List.not_mem_nil, or_false] at hp
    subst hp
    exact (show diverge (tag "channel_count -i") (tag "   1024") = true by decide +kernel))
  obtain ⟨r7, l7⟩ := nist_lookup t [(tag "   1024", []), (tag "channel_count -i", 32 :: printInt t.f.channels)] _
    (tag "sample_count -i") (32 :: printInt (wrapS 32 t.frames)) rfl (by
    intro p hp
    simp only [List.mem_cons, List.not_mem_nil, or_false] at hp
    rcases hp with rfl | rfl
    · exact (show diverge (tag "sample_count -i") (tag "   1024") = true by decide +kernel)
    · exact (show diverge (tag "sample_count -i") (tag "channel_count -i") = true by decide +kernel))
  obtain ⟨r6, l6⟩ := nist_lookup t [(tag "   1024", []), (tag "channel_count -i", 32 :: printInt t.f.channels),
      (tag "sample_count -i", 32 :: printInt (wrapS 32 t.frames))] _
    (tag "sample_rate -i") (32 :: printInt (toUnsigned t.f.rate)) rfl (by
    intro p hp
    simp only [List.mem_cons, List.not_mem_nil, or_false] at hp
    rcases hp with rfl | rfl | rfl
    · exact (show diverge (tag "sample_rate -i") (tag "   1024") = true by decide +kernel)
    · exact (show diverge (tag "sample_rate -i") (tag "channel_count -i") = true by decide +kernel)
    · exact (show diverge (tag "sample_rate -i") (tag "sample_count -i") = true by decide +kernel))
  obtain ⟨r2, l2⟩ := nist_lookup t [(tag "   1024", []), (tag "channel_count -i", 32 :: printInt t.f.channels),
      (tag "sample_count -i", 32 :: printInt (wrapS 32 t.frames)), (tag "sample_rate -i", 32 :: printInt (toUnsigned t.f.rate))] _
    (tag "sample_n_bytes -i") (32 :: printInt (nistBytes t.f)) rfl (by
    intro p hp
    simp only [List.mem_cons, List.not_mem_nil, or_false] at hp
    rcases hp with rfl | rfl | rfl | rfl
    · exact (show diverge (tag "sample_n_bytes -i") (tag "   1024") = true by decide +kernel)
    · exact (show diverge (tag "sample_n_bytes -i") (tag "channel_count -i") = true by decide +kernel)
    · exact (show diverge (tag "sample_n_bytes -i") (tag "sample_count -i") = true by decide +kernel)
    · exact (show diverge (tag "sample_n_bytes -i") (tag "sample_rate -i") = true by decide +kernel))
  obtain ⟨r4, l4⟩ := nist_lookup t [(tag "   1024", []), (tag "channel_count -i", 32 :: printInt t.f.channels),
      (tag "sample_count -i", 32 :: printInt (wrapS 32 t.frames)), (tag "sample_rate -i", 32 :: printInt (toUnsigned t.f.rate)),
      (tag "sample_n_bytes -i", 32 :: printInt (nistBytes t.f))] _
    (tag "sample_byte_format -s") (printInt (nistBytes t.f) ++ 32 :: nistByteFormat t.f) rfl (by
    intro p hp
    simp only [List.mem_cons, List.not_mem_nil, or_false] at hp
    rcases hp with rfl | rfl | rfl | rfl | rfl
    · exact (show diverge (tag "sample_byte_format -s") (tag "   1024") = true by decide +kernel)
    · exact (show diverge (tag "sample_byte_format -s") (tag "channel_count -i") = true by decide +kernel)
    · exact (show diverge (tag "sample_byte_format -s") (tag "sample_count -i") = true by decide +kernel)
    · exact (show diverge (tag "sample_byte_format -s") (tag "sample_rate -i") = true by decide +kernel)
    · exact (show diverge (tag "sample_byte_format -s") (tag "sample_n_bytes -i") = true by decide +kernel))
  obtain ⟨r5, l5⟩ := nist_lookup t [(tag "   1024", []), (tag "channel_count -i", 32 :: printInt t.f.channels),
      (tag "sample_count -i", 32 :: printInt (wrapS 32 t.frames)), (tag "sample_rate -i", 32 :: printInt (toUnsigned t.f.rate)),
      (tag "sample_n_bytes -i", 32 :: printInt (nistBytes t.f)),
      (tag "sample_byte_format -s", printInt (nistBytes t.f) ++ 32 :: nistByteFormat t.f)] _
    (tag "sample_sig_bits -i") (32 :: printInt t.f.sampleWidth) rfl (by
    intro p hp
    simp only [List.mem_cons, List.not_mem_nil, or_false] at hp
    rcases hp with rfl | rfl | rfl | rfl | rfl | rfl
    · exact (show diverge (tag "sample_sig_bits -i") (tag "   1024") = true by decide +kernel)
    · exact (show diverge (tag "sample_sig_bits -i") (tag "channel_count -i") = true by decide +kernel)
    · exact (show diverge (tag "sample_sig_bits -i") (tag "sample_count -i") = true by decide +kernel)
    · exact (show diverge (tag "sample_sig_bits -i") (tag "sample_rate -i") = true by decide +kernel)
    · exact (show diverge (tag "sample_sig_bits -i") (tag "sample_n_bytes -i") = true by decide +kernel)
    · exact (show diverge (tag "sample_sig_bits -i") (tag "sample_byte_format -s") = true by decide +kernel))
  obtain ⟨r3, l3⟩ := nist_lookup t [(tag "   1024", []), (tag "channel_count -i", 32 :: printInt t.f.channels),
      (tag "sample_count -i", 32 :: printInt (wrapS 32 t.frames)), (tag "sample_rate -i", 32 :: printInt (toUnsigned t.f.rate)),
      (tag "sample_n_bytes -i", 32 :: printInt (nistBytes t.f)),
      (tag "sample_byte_format -s", printInt (nistBytes t.f) ++ 32 :: nistByteFormat t.f),
      (tag "sample_sig_bits -i", 32 :: printInt t.f.sampleWidth)] _
    (tag "sample_coding -s") (printInt (nistCoding t.f).length ++ 32 :: nistCoding t.f) rfl (by
    intro p hp
    simp only [List.mem_cons, List.not_mem_nil, or_false] at hp
    rcases hp with rfl | rfl | rfl | rfl | rfl | rfl | rfl
    · exact (show diverge (tag "sample_coding -s") (tag "   1024") = true by decide +kernel)
    · exact (show diverge (tag "sample_coding -s") (tag "channel_count -i") = true by decide +kernel)
    · exact (show diverge (tag "sample_coding -s") (tag "sample_count -i") = true by decide +kernel)
    · exact (show diverge (tag "sample_coding -s") (tag "sample_rate -i") = true by decide +kernel)
    · exact (show diverge (tag "sample_coding -s") (tag "sample_n_bytes -i") = true by decide +kernel)
    · exact (show diverge (tag "sample_coding -s") (tag "sample_byte_format -s") = true by decide +kernel)
    · exact (show diverge (tag "sample_coding -s") (tag "sample_sig_bits -i") = true by decide +kernel))
  rw [← k1] at l1
  rw [← k2] at l2
  rw [← k3] at l3
  rw [← k4] at l4
  rw [← k5] at l5
  rw [← k6] at l6
  rw [← k7] at l7
  have hz := cstring_eq (nistHeader_nonzero t)
  have hlen := nistHeader_length hi
  have hmg : (nistHeader t).take 16 = nistMagic := by
    unfold nistHeader nistText
    simp only [List.append_assoc]
    exact List.take_left' (by decide +kernel)
  have w1 := wrap32_range t.frames
  generalize nistHeader t = H at *
  have e0 : (H ++ D).drop 0 = H ++ D := rfl
  unfold nistRead
  rw [Rd.bind_ok (a := ()) (p' := 0) rfl, Rd.bind_ok (Rd.read_ok (n := 1024) e0 hlen), if_neg (by rw [hlen]; simp),
    if_neg (by rw [hmg]; simp)]
  dsimp only
  rw [hz, Rd.bind_ok (nistInt_ok _ hi.channels.1 hi.channels.2 l1 _ _)]
  dsimp only
  rw [Rd.bind_ok (a := t.f.channels) (p' := 0 + 1024) rfl, if_neg (by omega),
    Rd.bind_ok (nistInt_ok _ hi.bytes.1 hi.bytes.2 l2 _ _)]
  dsimp only
  rw [Rd.bind_ok (a := nistBytes t.f) (p' := 0 + 1024) rfl, if_neg (by omega)]
  have c1 : (∀ b ∈ nistCoding t.f, isSpace b = false) ∧ nistCoding t.f ≠ [] ∧ (nistCoding t.f).length ≤ 79 := by
    unfold nistCoding
    repeat' split
    all_goals exact ⟨by decide +kernel, by decide +kernel, by decide +kernel⟩
  have c2 : (∀ b ∈ nistByteFormat t.f, isSpace b = false) ∧ nistByteFormat t.f ≠ [] ∧ (nistByteFormat t.f).length ≤ 79 := by
    unfold nistByteFormat
    repeat' split
    all_goals exact ⟨by decide +kernel, by decide +kernel, by decide +kernel⟩
  rw [List.append_assoc, List.cons_append] at l3 l4
  rw [Rd.bind_ok (nistString_ok _ (by omega) (by omega) l3 c1.1 c1.2.1 c1.2.2 _ _)]
  dsimp only
  have hcc : t.f.compression = 0 ∨ t.f.compression = 502 ∨ t.f.compression = 503 := by simpa using hc
  have hbw : nistBytes t.f = 2 → t.f.compression ≠ 0 → nistBytes t.f * 8 = 16 := by omega
  refine Rd.step (Q := NistOutcome h' t D)
    (P := fun F => ∃ f : AFmt, F = some f ∧ f.channels = t.f.channels ∧ f.sampleFormat = TWOSCOMP ∧
      f.compression = (if t.f.compression = NONE ∧ nistBytes t.f = 1 then ULAW else t.f.compression) ∧ f.sampleWidth = 16) ?_ ?_
  · rw [Rd.bind_ok (a := nistCoding t.f) (p' := 0 + 1024) rfl]
    have q1 : tag "ulaw" ≠ tag "pcm" := by decide +kernel
    have q2 : tag "alaw" ≠ tag "pcm" := by decide +kernel
    have q3 : tag "alaw" ≠ tag "ulaw" := by decide +kernel
    have q4 : tag "alaw" ≠ tag "mu-law" := by decide +kernel
    rcases hcc with hc0 | hc0 | hc0
    · have : nistCoding t.f = tag "pcm" := by unfold nistCoding; rw [hc0]; rfl
      rw [this, if_pos rfl]
      refine ⟨_, rfl, _, rfl, rfl, rfl, ?_, ?_⟩
      · dsimp only; rw [hc0]
        rcases hb with hb | hb <;> rw [hb] <;> rfl
      · dsimp only
        rcases hb with hb | hb <;> rw [hb] <;> rfl
    · have : nistCoding t.f = tag "ulaw" := by unfold nistCoding; rw [hc0]; rfl
      rw [this, if_neg q1, if_pos (.inl rfl)]
      refine ⟨_, rfl, _, rfl, rfl, rfl, ?_, rfl⟩
      dsimp only; rw [hc0]; rfl
    · have : nistCoding t.f = tag "alaw" := by unfold nistCoding; rw [hc0]; rfl
      rw [this, if_neg q2, if_neg (fun hq => hq.elim q3 q4), if_pos rfl]
      refine ⟨_, rfl, _, rfl, rfl, rfl, ?_, rfl⟩
      dsimp only; rw [hc0]; rfl
  rintro _ ⟨f1, rfl, a1, a2, a3, a4⟩
  dsimp only
  rw [Rd.bind_ok (nistString_ok _ hi.bytes.1 hi.bytes.2 l4 c2.1 c2.2.1 c2.2.2 _ _)]
  dsimp only
  refine Rd.step (Q := NistOutcome h' t D)
    (P := fun F => ∃ f : AFmt, F = some f ∧ f.channels = t.f.channels ∧ f.sampleFormat = TWOSCOMP ∧
      f.compression = (if t.f.compression = NONE ∧ nistBytes t.f = 1 then ULAW else t.f.compression) ∧ f.sampleWidth = 16 ∧
      ((nistBytes t.f = 2 → t.f.byteOrder = BIG ∨ t.f.byteOrder = LITTLE → f.byteOrder = t.f.byteOrder) ∧
        (nistBytes t.f = 1 → f.byteOrder = native h'))) ?_ ?_
  · rw [Rd.bind_ok (a := nistBytes t.f) (p' := 0 + 1024) rfl]
    rcases hb with hb | hb
    · rw [if_neg (by omega)]
      exact ⟨_, rfl, _, rfl, a1, a2, a3, a4, fun hb' => by omega, fun _ => rfl⟩
    · rw [if_pos (by omega), Rd.bind_ok (a := nistByteFormat t.f) (p' := 0 + 1024) rfl]
      refine ⟨_, rfl, _, rfl, a1, a2, a3, a4, fun _ ho => ?_, fun hb' => by omega⟩
      have hbf : nistByteFormat t.f = if t.f.byteOrder = BIG then [49, 48] else [48, 49] := by
        unfold nistByteFormat; rw [hb]; rfl
      dsimp only
      rw [hbf]
      rcases ho with ho | ho
      · rw [ho]; decide
      · rw [ho]; decide
  rintro _ ⟨f2, rfl, b1, b2, b3, b4, b5⟩
  dsimp only
  rw [Rd.bind_ok (nistInt_ok _ hi.width.1 hi.width.2 l5 _ _)]
  dsimp only
  refine Rd.step (Q := NistOutcome h' t D)
    (P := fun F => ∃ f : AFmt, F = some f ∧ f.channels = t.f.channels ∧ f.sampleFormat = TWOSCOMP ∧
      f.compression = (if t.f.compression = NONE ∧ nistBytes t.f = 1 then ULAW else t.f.compression) ∧
      f.sampleWidth = (if t.f.compression = NONE ∧ nistBytes t.f = 2 ∧ (t.f.sampleWidth + 7).tdiv 8 = 2 then
        t.f.sampleWidth else 16) ∧
      ((nistBytes t.f = 2 → t.f.byteOrder = BIG ∨ t.f.byteOrder = LITTLE → f.byteOrder = t.f.byteOrder) ∧
        (nistBytes t.f = 1 → f.byteOrder = native h'))) ?_ ?_
  · rw [Rd.bind_ok (a := t.f.sampleWidth) (p' := 0 + 1024) rfl, if_neg (by omega)]
    by_cases hcond : f2.compression = NONE ∧ (t.f.sampleWidth + 7).tdiv 8 = nistBytes t.f
    · rw [if_pos hcond]
      refine ⟨_, rfl, _, rfl, b1, b2, b3, ?_, b5⟩
      dsimp only
      obtain ⟨h1, h2⟩ := hcond
      rw [b3] at h1
      by_cases hq : t.f.compression = NONE ∧ nistBytes t.f = 1
      · rw [if_pos hq] at h1; exact absurd h1 (by decide)
      · rw [if_neg hq] at h1
        rw [if_pos ⟨h1, by grind, by grind⟩]
    · rw [if_neg hcond]
      refine ⟨_, rfl, _, rfl, b1, b2, b3, ?_, b5⟩
      rw [if_neg, b4]
      rintro ⟨h1, h2, h3⟩
      apply hcond
      rw [b3, if_neg (by omega), h2]
      exact ⟨h1, h3⟩
  rintro _ ⟨f3, rfl, d1, d2, d3, d4, d5⟩
  dsimp only
  rw [Rd.bind_ok (nistInt_ok _ hi.rate.1 hi.rate.2 l6 _ _)]
  dsimp only
  rw [Rd.bind_ok (a := toUnsigned t.f.rate) (p' := 0 + 1024) rfl]
  refine ⟨fun hr => ?_, fun hr => by rw [if_pos hr]; rfl⟩
  rw [if_neg (by omega),
    Rd.bind_ok (nistInt_ok _ w1.1 w1.2 l7 _ _)]
  dsimp only
  rw [Rd.bind_ok (a := wrapS 32 t.frames) (p' := 0 + 1024) rfl]
  have hwid : 1 ≤ f3.sampleWidth ∧ f3.sampleWidth ≤ 32 := by rw [d4]; split <;> omega
  have hset : (setSampleFormat { f3 with rate := (toUnsigned t.f.rate : Rat) } f3.sampleFormat f3.sampleWidth).1 = true := by
    rw [d2]
    unfold setSampleFormat
    rw [if_pos (.inr rfl), if_neg (by omega)]
    rfl
  obtain ⟨s1, s2, s3, s4, s5, s6⟩ := set_sampleFormat (f := { f3 with rate := (toUnsigned t.f.rate : Rat) })
    (w := f3.sampleWidth) (a := f3.sampleFormat) (.inl d2) hwid
  rw [hset, if_neg (by simp), Rd.bind_ok (a := (H ++ D).length) (p' := 0 + 1024) rfl]
  refine ⟨_, _, rfl, ⟨s6, s5.trans d1, s4.trans d3, s1.trans d2, s2.trans d4, fun h1 h2 => s3.trans (d5.1 h1 h2), fun h1 => s3.trans (d5.2 h1), rfl, ?_, rfl⟩⟩
  dsimp only
  rw [List.length_append, hlen]; omega

/-- NIST: what an accepted setup's format is. -/
theorem nist_accepted {h : Endian} {s s' : Setup} {tr : TrackSetup} {f : AFmt} (ht : s.tracks = [tr])
    (hid : tr.id = DEFAULT_TRACK) (hF : Flags tr) (hfmt : s.fileFormat = .nist) (hl : Legal tr.f)
    (hc : complete h s = (s', some (completed s tr f))) :
    f = tr.f ∧ f.sampleFormat = 401 ∧ 1 ≤ f.sampleWidth ∧ f.sampleWidth ≤ 16 ∧ f.compression ∈ [0, 502, 503] := by
  unfold complete at hc
  rw [hfmt] at hc
  dsimp only at hc
  unfold completeNIST at hc
  rw [theTrack_one ht hid] at hc
  dsimp only at hc
  obtain ⟨g1, hc⟩ := ite_none hc
  obtain ⟨g2, hc⟩ := ite_none hc
  obtain ⟨g3, hc⟩ := ite_none hc
  obtain ⟨g4, hc⟩ := ite_none hc
  obtain ⟨g5, hc⟩ := ite_none hc
  obtain ⟨g6, hc⟩ := ite_none hc
  have := copy_format_self ht hc
  subst this
  have h1 := hF.sample
  have h3 := hF.compression
  have h4 := hl.sample
  simp only [UNSIGNED, TWOSCOMP, FLOAT, DOUBLE, NONE, ULAW, ALAW, List.mem_cons, List.not_mem_nil, or_false] at *
  refine ⟨trivial, ?_, ?_, ?_, ?_⟩
  all_goals grind

end AF.Files
