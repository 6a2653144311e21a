import Verif.Spec.ForeignNist
import Verif.Proof.ForeignFormFiles
import Verif.Proof.Files.NIST
/-!
# Reading NIST SPHERE files of other programs
-/
namespace AF.Foreign
open AF AF.Setup AF.Files AF.Spec.Files AF.Spec.Formats AF.Spec.Setup AF.Spec.Foreign

theorem decimal_digits (n : Nat) : decimal n = digits n := by
  induction n using Nat.strongRecOn with
  | _ n ih =>
    rw [decimal, digits]
    by_cases h : n < 10
    · rw [if_pos h, if_pos h]
    · rw [if_neg h, if_neg h, ih (n / 10) (by omega)]

theorem decimal_print (n : Nat) : decimal n = printInt n := by
  unfold printInt
  rw [if_neg (by omega), Int.toNat_natCast, decimal_digits]

/-! ## Lines -/

theorem prefix_line {K l x : List Byte} (hK : ∀ b ∈ K, plain b = true) (h : K.isPrefixOf (l ++ 10 :: x) = true) : K <+: l := by
  rw [List.isPrefixOf_iff_prefix] at h
  by_cases hl : K.length ≤ l.length
  · exact List.prefix_of_prefix_length_le h (List.prefix_append _ _) hl
  · exfalso
    have h1 : l ++ [10] <+: K := by
      refine List.prefix_of_prefix_length_le (l₃ := l ++ 10 :: x) ⟨x, by simp⟩ h ?_
      rw [List.length_append, List.length_singleton]; omega
    have := hK 10 (h1.subset (by simp))
    exact absurd this (by decide)

/-- Lines and what follows them. -/
def lined (ls : List (List Byte)) (rest : List Byte) : List Byte := ls.flatMap (fun l => l ++ [10]) ++ rest

theorem lined_cons (l : List Byte) (ls : List (List Byte)) (rest : List Byte) : lined (l :: ls) rest = l ++ 10 :: lined ls rest := by
  unfold lined
  simp

theorem find_there {K v : List Byte} (hK : ∀ b ∈ K, plain b = true) : ∀ (A : List (List Byte)) (pre rest : List Byte),
    (∀ b ∈ pre, plain b = true) → (∀ l ∈ A, (∀ b ∈ l, plain b = true) ∧ ¬ K <+: l) →
    findAfter (10 :: K) (pre ++ 10 :: lined A (K ++ v ++ 10 :: rest)) = some (v ++ 10 :: rest)
  | [], pre, rest, hp, _ => by
    rw [find_skip K pre _ hp]
    have e : lined [] (K ++ v ++ 10 :: rest) = K ++ (v ++ 10 :: rest) := by unfold lined; simp
    rw [e, if_pos (by rw [List.isPrefixOf_iff_prefix]; exact List.prefix_append _ _), List.drop_left]
  | l :: A, pre, rest, hp, h => by
    obtain ⟨h1, h2⟩ := h l (by simp)
    rw [find_skip K pre _ hp, lined_cons, if_neg fun hh => h2 (prefix_line hK hh)]
    exact find_there hK A l rest h1 fun p hp => h p (by simp [hp])

theorem find_no {pat : List Byte} {c : Byte} (hc : c ∈ pat) : ∀ s : List Byte, c ∉ s → findAfter pat s = none
  | [], _ => by
    rw [findAfter, if_neg]
    intro h; rw [h] at hc; cases hc
  | b :: s, h => by
    rw [findAfter, if_neg, find_no hc s (fun hs => h (List.mem_cons_of_mem _ hs))]
    intro hp
    rw [List.isPrefixOf_iff_prefix] at hp
    exact h (hp.subset hc)

theorem find_absent {K : List Byte} {c : Byte} (hc : c ∈ K) (hK : ∀ b ∈ K, plain b = true) : ∀ (A : List (List Byte)) (pre rest : List Byte),
    (∀ b ∈ pre, plain b = true) → (∀ l ∈ A, (∀ b ∈ l, plain b = true) ∧ ¬ K <+: l) → c ∉ rest →
    findAfter (10 :: K) (pre ++ 10 :: lined A rest) = none
  | [], pre, rest, hp, _, hr => by
    rw [find_skip K pre _ hp]
    have e : lined [] rest = rest := by unfold lined; simp
    rw [e, if_neg, find_no (List.mem_cons_of_mem _ hc) _ hr]
    intro h
    rw [List.isPrefixOf_iff_prefix] at h
    exact hr (h.subset hc)
  | l :: A, pre, rest, hp, h, hr => by
    obtain ⟨h1, h2⟩ := h l (by simp)
    rw [find_skip K pre _ hp, lined_cons, if_neg fun hh => h2 (prefix_line hK hh)]
    exact find_absent hc hK A l rest h1 (fun p hp => h p (by simp [hp])) hr

/-! ## Fields -/

theorem split_space : ∀ {a c b d : List Byte}, (∀ x ∈ a, x ≠ 32) → (∀ x ∈ c, x ≠ 32) → a ++ 32 :: b <+: c ++ 32 :: d → a = c ∧ b <+: d
  | [], [], b, d, _, _, h => ⟨rfl, by simpa using h⟩
  | [], y :: c, b, d, _, hc, h => by
    have : (32 : Byte) = y := by
      rw [List.nil_append, List.cons_append, List.cons_prefix_cons] at h
      exact h.1
    exact absurd this.symm (hc y (by simp))
  | x :: a, [], b, d, ha, _, h => by
    have : x = 32 := by
      rw [List.nil_append, List.cons_append, List.cons_prefix_cons] at h
      exact h.1
    exact absurd this (ha x (by simp))
  | x :: a, y :: c, b, d, ha, hc, h => by
    rw [List.cons_append, List.cons_append, List.cons_prefix_cons] at h
    obtain ⟨h1, h2⟩ := split_space (fun z hz => ha z (by simp [hz])) (fun z hz => hc z (by simp [hz])) h.2
    exact ⟨by rw [h.1, h1], h2⟩

theorem line_eq (f : SphereField) : f.line = f.name ++ 32 :: (f.type ++ 32 :: f.value) := by
  unfold SphereField.line
  simp

theorem plain_iff {b : Byte} : plain b = true ↔ b ≠ 0 ∧ b ≠ 10 := by
  unfold plain
  simp

theorem line_plain {f : SphereField} (ok : f.Ok) : ∀ b ∈ f.line, plain b = true := by
  intro b hb
  rw [plain_iff]
  unfold SphereField.line at hb
  simp only [List.mem_append, List.mem_singleton] at hb
  rcases hb with (((hb | hb) | hb) | hb) | hb
  · exact ⟨(ok.name b hb).1, (ok.name b hb).2.1⟩
  · rw [hb]; decide
  · exact ok.type b hb
  · rw [hb]; decide
  · exact ok.value b hb

/-- The text of the header, up to a zero byte. -/
theorem nist_text (x : Nist) (ok : x.Ok) : ∃ pad : List Byte, (∀ b ∈ pad, b = 10 ∨ b = 32) ∧
    cstring x.header = text "NIST_1A" ++ 10 :: lined ([text "   1024"] ++ x.fields.map SphereField.line ++ [text "end_head"]) pad := by
  refine ⟨cstring x.pad, ?_, ?_⟩
  · intro b hb
    unfold cstring at hb
    have h1 := ok.pad b ((List.takeWhile_sublist _).subset hb)
    have h2 := List.all_eq_true.1 (List.all_takeWhile (l := x.pad) (p := fun b => decide (b ≠ 0))) b hb
    rcases h1 with h | h
    · subst h; simp at h2
    · exact h
  · have e : x.header = (text "NIST_1A" ++ 10 :: lined ([text "   1024"] ++ x.fields.map SphereField.line ++ [text "end_head"]) []) ++ x.pad := by
      unfold Nist.header lined
      simp only [List.flatMap_append, List.flatMap_map, List.flatMap_cons, List.flatMap_nil, List.append_nil, List.append_assoc]
      rw [show text "NIST_1A\n   1024\n" = text "NIST_1A" ++ (10 :: (text "   1024" ++ [10])) by decide +kernel,
        show text "end_head\n" = text "end_head" ++ [10] by decide +kernel]
      simp only [List.append_assoc, List.cons_append, List.nil_append]
    rw [e]
    unfold cstring
    rw [List.takeWhile_append_of_pos]
    · unfold lined
      simp
    · intro b hb
      unfold lined at hb
      simp only [List.mem_append, List.mem_cons, List.mem_flatMap, List.mem_map, List.not_mem_nil, or_false] at hb
      have key : ∀ l : List Byte, (∀ b ∈ l, b ≠ 0) → b ∈ l → decide (b ≠ 0) = true := fun l h1 h2 => by simpa using h1 b h2
      rcases hb with hb | hb | ⟨l, hl, hb⟩
      · exact key _ (by decide) hb
      · rw [hb]; decide
      · rcases hb with hb | hb
        · rcases hl with (hl | ⟨f, hf, rfl⟩) | hl
          · subst hl; exact key _ (by decide) hb
          · have := line_plain (ok.fields f hf) b hb
            rw [plain_iff] at this
            simpa using this.1
          · subst hl; exact key _ (by decide) hb
        · rw [hb]; decide

/-- A name and a type after it, as they are looked for. -/
def sphereKey (name type : List Byte) : List Byte := name ++ 32 :: type

theorem key_line {name type : List Byte} (hn : ∀ b ∈ name, b ≠ 0 ∧ b ≠ 10 ∧ b ≠ 32) {f : SphereField} (ok : f.Ok)
    (h : sphereKey name type <+: f.line) : f.name = name := by
  rw [line_eq] at h
  exact (split_space (fun b hb => (hn b hb).2.2) (fun b hb => (ok.name b hb).2.2) h).1.symm

theorem key_other {name type l : List Byte} (hn : ∀ b ∈ name, b ≠ 32) (hl : (32 : Byte) ∉ l) : ¬ sphereKey name type <+: l := by
  intro h
  exact hl (h.subset (by unfold sphereKey; simp))

section
variable {x : Nist} (ok : x.Ok) {name type : List Byte} (hn : ∀ b ∈ name, b ≠ 0 ∧ b ≠ 10 ∧ b ≠ 32) (ht : ∀ b ∈ type, b ≠ 0 ∧ b ≠ 10)
  (hs : name.head? = some 99 ∨ name.head? = some 115)
include ok hn ht hs

theorem key_plain : ∀ b ∈ sphereKey name type, plain b = true := by
  intro b hb
  rw [plain_iff]
  unfold sphereKey at hb
  simp only [List.mem_append, List.mem_cons] at hb
  rcases hb with hb | hb | hb
  · exact ⟨(hn b hb).1, (hn b hb).2.1⟩
  · rw [hb]; decide
  · exact ht b hb

theorem key_first : ¬ sphereKey name type <+: text "   1024" := by
  intro h
  match name, hs with
  | b :: l, hs =>
    have : b = 32 := by
      unfold sphereKey at h
      rw [List.cons_append, show text "   1024" = 32 :: (text "   1024").tail from rfl, List.cons_prefix_cons] at h
      exact h.1
    exact (hn b (by simp)).2.2 this

/-- The value of a field that is there. -/
theorem nist_there {f : SphereField} (hf : f ∈ x.says) (hname : f.name = name) (hin : name ∈ sphereNames)
    (huniq : ∀ g ∈ x.says, g.name = name → g = f) {more : List Byte} (htype : f.type = type ++ more) :
    ∃ rest, findAfter (10 :: sphereKey name type) (cstring x.header) = some (more ++ 32 :: (f.value ++ 10 :: rest)) := by
  obtain ⟨pad, hpad, htext⟩ := nist_text x ok
  obtain ⟨A, B, hAB, hA⟩ := List.eq_append_cons_of_mem (ok.says f hf)
  have hl : f.line = sphereKey name type ++ (more ++ 32 :: f.value) := by
    rw [line_eq, htype, hname]
    unfold sphereKey
    simp
  have e : lined ([text "   1024"] ++ x.fields.map SphereField.line ++ [text "end_head"]) pad =
      lined (text "   1024" :: A.map SphereField.line) (sphereKey name type ++ (more ++ 32 :: f.value) ++ 10 :: lined (B.map SphereField.line ++ [text "end_head"]) pad) := by
    rw [hAB, List.map_append, List.map_cons, hl]
    unfold lined
    simp
  rw [htext, e]
  refine ⟨lined (B.map SphereField.line ++ [text "end_head"]) pad, ?_⟩
  have := find_there (v := more ++ 32 :: f.value) (key_plain ok hn ht hs) (text "   1024" :: A.map SphereField.line) (text "NIST_1A")
    (lined (B.map SphereField.line ++ [text "end_head"]) pad) (by decide) ?_
  · rw [this]
    simp
  · intro l hl
    rcases List.mem_cons.1 hl with rfl | hl
    · exact ⟨by decide, key_first ok hn ht hs⟩
    · obtain ⟨g, hg, rfl⟩ := List.mem_map.1 hl
      have hgf : g ∈ x.fields := by rw [hAB]; simp [hg]
      refine ⟨line_plain (ok.fields g hgf), fun hk => ?_⟩
      have hgn := key_line hn (ok.fields g hgf) hk
      have := huniq g (ok.known g hgf (by rw [hgn]; exact hin)) hgn
      exact hA (this ▸ hg)

/-- A field that is not there. -/
theorem nist_absent (hin : name ∈ sphereNames) (hno : ∀ g ∈ x.says, g.name ≠ name) :
    findAfter (10 :: sphereKey name type) (cstring x.header) = none := by
  obtain ⟨pad, hpad, htext⟩ := nist_text x ok
  rw [htext]
  have hc : ∃ c, c ∈ sphereKey name type ∧ (c = 99 ∨ c = 115) := by
    match name, hs with
    | b :: l, hs =>
      refine ⟨b, by unfold sphereKey; simp, ?_⟩
      simpa using hs
  obtain ⟨c, hc, hc'⟩ := hc
  refine find_absent hc (key_plain ok hn ht hs) _ _ _ (by decide) ?_ ?_
  · intro l hl
    simp only [List.mem_append, List.mem_singleton, List.mem_map] at hl
    rcases hl with (rfl | ⟨g, hg, rfl⟩) | rfl
    · exact ⟨by decide, key_first ok hn ht hs⟩
    · refine ⟨line_plain (ok.fields g hg), fun hk => ?_⟩
      have hgn := key_line hn (ok.fields g hg) hk
      exact hno g (ok.known g hg (by rw [hgn]; exact hin)) hgn
    · exact ⟨by decide, key_other (fun b hb => (hn b hb).2.2) (by decide)⟩
  · intro h
    rcases hpad c h with h | h <;> subst h <;> rcases hc' with h | h <;> exact absurd h (by decide)
end

/-- A number that is looked up. -/
theorem nist_int {x : Nist} (ok : x.Ok) {s : String} {n : Nat} (hn : ∀ b ∈ text s, b ≠ 0 ∧ b ≠ 10 ∧ b ≠ 32)
    (hs : (text s).head? = some 99 ∨ (text s).head? = some 115) (hf : sphereInt s n ∈ x.says) (hin : text s ∈ sphereNames)
    (huniq : ∀ g ∈ x.says, g.name = text s → g = sphereInt s n) (h31 : n < 2 ^ 31) (cur : Option Int) (file : List Byte) (p : Nat) :
    nistInt (cstring x.header) (10 :: sphereKey (text s) (text "-i")) cur file p = .ok (some (some (n : Int)), p) := by
  obtain ⟨rest, hr⟩ := nist_there ok hn (type := text "-i") (by decide) hs hf rfl hin huniq (more := []) rfl
  refine nistInt_ok (rest := rest) cur (by omega) (by omega) ?_ file p
  rw [hr]
  show some (32 :: (decimal n ++ 10 :: rest)) = _
  rw [decimal_print]
  rfl

/-- A word that is looked up. -/
theorem nist_word {x : Nist} (ok : x.Ok) {s : String} {w : List Byte} (hn : ∀ b ∈ text s, b ≠ 0 ∧ b ≠ 10 ∧ b ≠ 32)
    (hs : (text s).head? = some 99 ∨ (text s).head? = some 115) (hf : sphereWord s w ∈ x.says) (hin : text s ∈ sphereNames)
    (huniq : ∀ g ∈ x.says, g.name = text s → g = sphereWord s w) (hw : ∀ b ∈ w, isSpace b = false) (hne : w ≠ []) (hl : w.length ≤ 79)
    (cur : Option Int × Option (List Byte)) (file : List Byte) (p : Nat) :
    nistString (cstring x.header) (10 :: sphereKey (text s) (text "-s")) cur file p = .ok (some (some (w.length : Int), some w), p) := by
  obtain ⟨rest, hr⟩ := nist_there ok hn (type := text "-s") (by decide) hs hf rfl hin huniq (more := decimal w.length) rfl
  refine nistString_ok (rest := rest) cur (by omega) (by omega) ?_ hw hne hl file p
  rw [hr, decimal_print]
  rfl

theorem nist_noint {x : Nist} (ok : x.Ok) {s : String} (hn : ∀ b ∈ text s, b ≠ 0 ∧ b ≠ 10 ∧ b ≠ 32)
    (hs : (text s).head? = some 99 ∨ (text s).head? = some 115) (hin : text s ∈ sphereNames)
    (hno : ∀ g ∈ x.says, g.name ≠ text s) (cur : Option Int) (file : List Byte) (p : Nat) :
    nistInt (cstring x.header) (10 :: sphereKey (text s) (text "-i")) cur file p = .ok (none, p) := by
  unfold nistInt
  rw [nist_absent ok hn (type := text "-i") (by decide) hs hin hno]
  rfl

theorem nist_noword {x : Nist} (ok : x.Ok) {s : String} (hn : ∀ b ∈ text s, b ≠ 0 ∧ b ≠ 10 ∧ b ≠ 32)
    (hs : (text s).head? = some 99 ∨ (text s).head? = some 115) (hin : text s ∈ sphereNames)
    (hno : ∀ g ∈ x.says, g.name ≠ text s) (cur : Option Int × Option (List Byte)) (file : List Byte) (p : Nat) :
    nistString (cstring x.header) (10 :: sphereKey (text s) (text "-s")) cur file p = .ok (none, p) := by
  unfold nistString
  rw [nist_absent ok hn (type := text "-s") (by decide) hs hin hno]
  rfl

/-- What a header means, case by case. -/
theorem nist_kind {x : Nist} (ok : x.Ok) {k : Kind} {order : Int} (hk : x.kind = some (k, order)) :
    ((2 ≤ x.bytes ∧ x.bytes ≤ 4 ∧ (x.coding = none ∨ x.coding = some (text "pcm")) ∧
        k = signed (match x.bits with | some b => if (b + 7) / 8 = x.bytes then b else 8 * x.bytes | none => 8 * x.bytes) ∧
        (x.order = some (lowFirst x.bytes) ∧ order = LITTLE ∨ x.order = some (highFirst x.bytes) ∧ order = BIG)) ∨
      (x.bytes = 1 ∧ (∃ b : Byte, x.order = some [b] ∧ 33 ≤ b.toNat) ∧
        ((x.coding = none ∨ x.coding = some (text "ulaw") ∨ x.coding = some (text "mu-law")) ∧ k = muLaw ∨ x.coding = some (text "alaw") ∧ k = aLaw))) := by
  unfold Nist.kind at hk
  dsimp only at hk
  have pcm : ∀ {w : Nat}, (if 2 ≤ x.bytes ∧ x.bytes ≤ 4 then
      if x.order = some (lowFirst x.bytes) then some (signed w, LITTLE)
      else if x.order = some (highFirst x.bytes) then some (signed w, BIG) else none else none) = some (k, order) →
      (2 ≤ x.bytes ∧ x.bytes ≤ 4) ∧ k = signed w ∧ (x.order = some (lowFirst x.bytes) ∧ order = LITTLE ∨ x.order = some (highFirst x.bytes) ∧ order = BIG) := by
    intro w h
    by_cases h1 : 2 ≤ x.bytes ∧ x.bytes ≤ 4
    · rw [if_pos h1] at h
      by_cases h2 : x.order = some (lowFirst x.bytes)
      · rw [if_pos h2] at h; injection h with h; injection h with a b
        exact ⟨h1, a.symm, .inl ⟨h2, b.symm⟩⟩
      · rw [if_neg h2] at h
        by_cases h3 : x.order = some (highFirst x.bytes)
        · rw [if_pos h3] at h; injection h with h; injection h with a b
          exact ⟨h1, a.symm, .inr ⟨h3, b.symm⟩⟩
        · rw [if_neg h3] at h; cases h
    · rw [if_neg h1] at h; cases h
  have g711 : ∀ {kk : Kind}, (if x.bytes = 1 then some (kk, BIG) else none) = some (k, order) → x.bytes = 1 ∧ k = kk := by
    intro kk h
    by_cases h1 : x.bytes = 1
    · rw [if_pos h1] at h; injection h with h; injection h with a b
      exact ⟨h1, a.symm⟩
    · rw [if_neg h1] at h; cases h
  cases hc : x.coding with
  | none =>
    rw [hc] at hk
    dsimp only at hk
    by_cases h1 : x.bytes = 1
    · rw [if_pos h1] at hk
      exact .inr ⟨h1, ok.order h1, .inl ⟨.inl rfl, (g711 hk).2⟩⟩
    · rw [if_neg h1] at hk
      obtain ⟨a, b, c⟩ := pcm hk
      exact .inl ⟨a.1, a.2, .inl rfl, b, c⟩
  | some c =>
    rw [hc] at hk
    dsimp only at hk
    by_cases h1 : c = text "pcm"
    · rw [if_pos h1] at hk
      obtain ⟨a, b, d⟩ := pcm hk
      exact .inl ⟨a.1, a.2, .inr (by rw [h1]), b, d⟩
    rw [if_neg h1] at hk
    by_cases h2 : c = text "ulaw" ∨ c = text "mu-law"
    · rw [if_pos h2] at hk
      obtain ⟨a, b⟩ := g711 hk
      exact .inr ⟨a, ok.order a, .inl ⟨.inr (h2.imp (by rintro rfl; rfl) (by rintro rfl; rfl)), b⟩⟩
    rw [if_neg h2] at hk
    by_cases h3 : c = text "alaw"
    · rw [if_pos h3] at hk
      obtain ⟨a, b⟩ := g711 hk
      exact .inr ⟨a, ok.order a, .inr ⟨by rw [h3], b⟩⟩
    · rw [if_neg h3] at hk; cases hk

theorem nist_good {x : Nist} (ok : x.Ok) {k : Kind} {order : Int} (hk : x.kind = some (k, order)) : Kind.Good k := by
  rcases nist_kind ok hk with ⟨a, b, -, rfl, -⟩ | ⟨-, -, ⟨-, rfl⟩ | ⟨-, rfl⟩⟩
  · apply good_signed
    cases hb : x.bits with
    | none => dsimp only; omega
    | some n =>
      have := ok.bits n hb
      dsimp only
      split <;> omega
  · exact good_muLaw
  · exact good_aLaw

/-- What the reader has in its format while it goes through the fields. -/
structure NistF (x : Nist) (k : Kind) (width : Nat) (f : AFmt) : Prop where
  channels : f.channels = x.channels
  sampleFormat : f.sampleFormat = TWOSCOMP
  compression : f.compression = k.compression
  width : f.sampleWidth = width

theorem nist_found (h : Endian) (x : Nist) (ok : x.Ok) {k : Kind} {order : Int} (hk : x.kind = some (k, order)) :
    ∃ t p, nistRead h x.file 0 = .ok (t, p) ∧ SameSound (described x.rate x.channels order k) x.sound x.count x.file t ∧
      (k.compression ≠ NONE → t.f.byteOrder = native h) := by
  have good := nist_good ok hk
  have hcase := nist_kind ok hk
  have k1 : keyChannels = 10 :: sphereKey (text "channel_count") (text "-i") := by decide +kernel
  have k2 : keyBytes = 10 :: sphereKey (text "sample_n_bytes") (text "-i") := by decide +kernel
  have k3 : keyCoding = 10 :: sphereKey (text "sample_coding") (text "-s") := by decide +kernel
  have k4 : keyOrder = 10 :: sphereKey (text "sample_byte_format") (text "-s") := by decide +kernel
  have k5 : keyBits = 10 :: sphereKey (text "sample_sig_bits") (text "-i") := by decide +kernel
  have k6 : keyRate = 10 :: sphereKey (text "sample_rate") (text "-i") := by decide +kernel
  have k7 : keyCount = 10 :: sphereKey (text "sample_count") (text "-i") := by decide +kernel
  have hsays : ∀ g ∈ x.says, g = sphereInt "channel_count" x.channels ∨ g = sphereInt "sample_count" x.count ∨ g = sphereInt "sample_rate" x.rate ∨
      g = sphereInt "sample_n_bytes" x.bytes ∨ (∃ w, x.order = some w ∧ g = sphereWord "sample_byte_format" w) ∨
      (∃ n, x.bits = some n ∧ g = sphereInt "sample_sig_bits" n) ∨ (∃ w, x.coding = some w ∧ g = sphereWord "sample_coding" w) := by
    intro g hg
    unfold Nist.says at hg
    simp only [List.mem_append, List.mem_cons, List.not_mem_nil, or_false, List.mem_map, Option.mem_toList] at hg
    rcases hg with (((hg | hg | hg | hg) | ⟨w, hw, rfl⟩) | ⟨w, hw, rfl⟩) | ⟨w, hw, rfl⟩
    · exact .inl hg
    · exact .inr (.inl hg)
    · exact .inr (.inr (.inl hg))
    · exact .inr (.inr (.inr (.inl hg)))
    · exact .inr (.inr (.inr (.inr (.inl ⟨w, hw, rfl⟩))))
    · exact .inr (.inr (.inr (.inr (.inr (.inl ⟨w, hw, rfl⟩)))))
    · exact .inr (.inr (.inr (.inr (.inr (.inr ⟨w, hw, rfl⟩)))))
  have hwhich : ∀ g ∈ x.says, (g.name = text "channel_count" → g = sphereInt "channel_count" x.channels) ∧
      (g.name = text "sample_count" → g = sphereInt "sample_count" x.count) ∧ (g.name = text "sample_rate" → g = sphereInt "sample_rate" x.rate) ∧
      (g.name = text "sample_n_bytes" → g = sphereInt "sample_n_bytes" x.bytes) ∧
      (g.name = text "sample_byte_format" → ∃ w, x.order = some w ∧ g = sphereWord "sample_byte_format" w) ∧
      (g.name = text "sample_sig_bits" → ∃ n, x.bits = some n ∧ g = sphereInt "sample_sig_bits" n) ∧
      (g.name = text "sample_coding" → ∃ w, x.coding = some w ∧ g = sphereWord "sample_coding" w) := by
    have d : ∀ {a b : String}, (text a = text b → False) → ∀ {P : Prop}, text a = text b → P := fun h _ e => (h e).elim
    intro g hg
    rcases hsays g hg with rfl | rfl | rfl | rfl | ⟨w, hw, rfl⟩ | ⟨w, hw, rfl⟩ | ⟨w, hw, rfl⟩
    · exact ⟨fun _ => rfl, d (by decide), d (by decide), d (by decide), d (by decide), d (by decide), d (by decide)⟩
    · exact ⟨d (by decide), fun _ => rfl, d (by decide), d (by decide), d (by decide), d (by decide), d (by decide)⟩
    · exact ⟨d (by decide), d (by decide), fun _ => rfl, d (by decide), d (by decide), d (by decide), d (by decide)⟩
    · exact ⟨d (by decide), d (by decide), d (by decide), fun _ => rfl, d (by decide), d (by decide), d (by decide)⟩
    · exact ⟨d (by decide), d (by decide), d (by decide), d (by decide), fun _ => ⟨w, hw, rfl⟩, d (by decide), d (by decide)⟩
    · exact ⟨d (by decide), d (by decide), d (by decide), d (by decide), d (by decide), fun _ => ⟨w, hw, rfl⟩, d (by decide)⟩
    · exact ⟨d (by decide), d (by decide), d (by decide), d (by decide), d (by decide), d (by decide), fun _ => ⟨w, hw, rfl⟩⟩
  have l1 := nist_int ok (s := "channel_count") (n := x.channels) (by decide) (.inl rfl) (by simp [Nist.says]) (by decide) (fun g hg => (hwhich g hg).1) ok.channels.2
  have l2 := nist_int ok (s := "sample_n_bytes") (n := x.bytes) (by decide) (.inr rfl) (by simp [Nist.says]) (by decide) (fun g hg => (hwhich g hg).2.2.2.1)
    (by rcases hcase with ⟨a, b, -⟩ | ⟨a, -⟩ <;> omega)
  have l6 := nist_int ok (s := "sample_rate") (n := x.rate) (by decide) (.inr rfl) (by simp [Nist.says]) (by decide) (fun g hg => (hwhich g hg).2.2.1) ok.rate.2
  have l7 := nist_int ok (s := "sample_count") (n := x.count) (by decide) (.inr rfl) (by simp [Nist.says]) (by decide) (fun g hg => (hwhich g hg).2.1) ok.count
  obtain ⟨w, hw, hwl, hw1, hw2, hw3⟩ : ∃ w, x.order = some w ∧ w.length = x.bytes ∧ (∀ b ∈ w, isSpace b = false) ∧ w ≠ [] ∧ w.length ≤ 79 := by
    rcases hcase with ⟨a, b, -, -, ⟨c, -⟩ | ⟨c, -⟩⟩ | ⟨a, ⟨b, c, d⟩, -⟩
    · refine ⟨_, c, by unfold lowFirst; simp, ?_⟩
      have : x.bytes = 2 ∨ x.bytes = 3 ∨ x.bytes = 4 := by omega
      rcases this with e | e | e <;> rw [e] <;> decide
    · refine ⟨_, c, by unfold highFirst lowFirst; simp, ?_⟩
      have : x.bytes = 2 ∨ x.bytes = 3 ∨ x.bytes = 4 := by omega
      rcases this with e | e | e <;> rw [e] <;> decide
    · refine ⟨_, c, by rw [a]; rfl, ?_, by simp, by simp⟩
      intro b' hb'
      rw [List.mem_singleton.1 hb']
      unfold isSpace
      rw [Bool.or_eq_false_iff]
      constructor
      · apply decide_eq_false
        intro e
        rw [e] at d
        exact absurd d (by decide)
      · rw [Bool.and_eq_false_iff]
        right
        apply decide_eq_false
        omega
  have l4 := nist_word ok (s := "sample_byte_format") (w := w) (by decide) (.inr rfl) (by unfold Nist.says; rw [hw]; simp) (by decide)
    (fun g hg e => by
      obtain ⟨w', e1, e2⟩ := (hwhich g hg).2.2.2.2.1 e
      rw [hw] at e1; injection e1 with e1; rw [e2, e1]) hw1 hw2 hw3
  rw [← k1] at l1
  rw [← k2] at l2
  rw [← k4] at l4
  rw [← k6] at l6
  rw [← k7] at l7
  have hlen := ok.size
  have hmg : x.header.take 16 = nistMagic := by
    unfold Nist.header
    simp only [List.append_assoc]
    exact List.take_left' (by decide +kernel)
  have e0 : x.file.drop 0 = x.header ++ x.sound := rfl
  have hflen : x.file.length = 1024 + x.sound.length := by
    unfold Nist.file; rw [List.length_append, hlen]
  have hch := ok.channels
  let Good (X : Except Err (Trk × Nat)) : Prop := ∃ t p, X = .ok (t, p) ∧ SameSound (described x.rate x.channels order k) x.sound x.count x.file t ∧
      (k.compression ≠ NONE → t.f.byteOrder = native h)
  show Good _
  unfold nistRead
  rw [Rd.bind_ok (a := ()) (p' := 0) rfl, Rd.bind_ok (Rd.read_ok (n := 1024) e0 hlen), if_neg (by rw [hlen]; simp),
    if_neg (by rw [hmg]; simp)]
  dsimp only
  rw [Rd.bind_ok (l1 _ _ _)]
  dsimp only
  rw [Rd.bind_ok (a := (x.channels : Int)) (p' := 0 + 1024) rfl, if_neg (by omega), Rd.bind_ok (l2 _ _ _)]
  dsimp only
  rw [Rd.bind_ok (a := (x.bytes : Int)) (p' := 0 + 1024) rfl, if_neg (by rcases hcase with ⟨a, b, -⟩ | ⟨a, -⟩ <;> omega)]
  have hbytes : (k.compression = NONE ∧ (x.bytes : Int) ≠ 1) ∨ (k.compression ≠ NONE ∧ (x.bytes : Int) = 1) := by
    rcases hcase with ⟨a, b, -, rfl, -⟩ | ⟨a, -, ⟨-, rfl⟩ | ⟨-, rfl⟩⟩
    · exact .inl ⟨rfl, by omega⟩
    · exact .inr ⟨by decide, by omega⟩
    · exact .inr ⟨by decide, by omega⟩
  refine Rd.step (Q := Good) (P := fun r => (x.coding = none ∧ r = none) ∨ ∃ c, x.coding = some c ∧ r = some (some (c.length : Int), some c)) ?_ ?_
  · rw [k3]
    cases hc : x.coding with
    | none =>
      refine ⟨none, nist_noword ok (by decide) (.inr rfl) (by decide) (fun g hg e => ?_) _ _ _, .inl ⟨rfl, rfl⟩⟩
      obtain ⟨w', e1, -⟩ := (hwhich g hg).2.2.2.2.2.2 e
      rw [hc] at e1; cases e1
    | some c =>
      have hcw : (∀ b ∈ c, isSpace b = false) ∧ c ≠ [] ∧ c.length ≤ 79 := by
        have : c = text "pcm" ∨ c = text "ulaw" ∨ c = text "mu-law" ∨ c = text "alaw" := by
          rcases hcase with ⟨-, -, a, -⟩ | ⟨-, -, ⟨a, -⟩ | ⟨a, -⟩⟩
          · rw [hc] at a
            rcases a with a | a
            · cases a
            · injection a with a; exact .inl a
          · rw [hc] at a
            rcases a with a | a | a
            · cases a
            · injection a with a; exact .inr (.inl a)
            · injection a with a; exact .inr (.inr (.inl a))
          · rw [hc] at a; injection a with a; exact .inr (.inr (.inr a))
        rcases this with rfl | rfl | rfl | rfl <;> decide
      refine ⟨_, nist_word ok (s := "sample_coding") (w := c) (by decide) (.inr rfl) (by unfold Nist.says; rw [hc]; simp) (by decide)
        (fun g hg e => ?_) hcw.1 hcw.2.1 hcw.2.2 _ _ _, .inr ⟨c, rfl, rfl⟩⟩
      obtain ⟨w', e1, e2⟩ := (hwhich g hg).2.2.2.2.2.2 e
      rw [hc] at e1; injection e1 with e1; rw [e2, e1]
  intro r hr
  obtain ⟨iv, sv, hiv⟩ : ∃ iv sv, r.getD (some (x.channels : Int), none) = (iv, sv) := ⟨_, _, rfl⟩
  rw [hiv]
  dsimp only
  refine Rd.step (Q := Good) (P := fun F => ∃ f : AFmt, F = some f ∧ NistF x k (if k.compression = NONE then 8 * x.bytes else 16) f) ?_ ?_
  · have q0 : text "pcm" = tag "pcm" := rfl
    have w0 : ∀ (n : Int), n ≠ 1 → (if n = 1 then (16 : Int) else n * 8) = n * 8 := fun n hn => if_neg hn
    rcases hr with ⟨hc, rfl⟩ | ⟨c, hc, rfl⟩
    · refine ⟨_, rfl, _, rfl, ⟨rfl, rfl, ?_, ?_⟩⟩
      · dsimp only
        rcases hcase with ⟨a, b, -, rfl, -⟩ | ⟨a, -, ⟨-, rfl⟩ | ⟨d, -⟩⟩
        · rw [if_neg (by omega)]; rfl
        · rw [if_pos (by omega)]; rfl
        · rw [hc] at d; cases d
      · dsimp only
        rcases hbytes with ⟨a, b⟩ | ⟨a, b⟩
        · rw [if_neg b, if_pos a]; omega
        · rw [if_pos b, if_neg a]; rfl
    · injection hiv with h1 h2
      dsimp only
      rw [← h2, Rd.bind_ok (a := c) (p' := 0 + 1024) rfl]
      rcases hcase with ⟨a, b, d, rfl, -⟩ | ⟨a, -, ⟨d, rfl⟩ | ⟨d, rfl⟩⟩
      · rw [hc] at d
        rcases d with d | d
        · cases d
        · injection d with d
          subst d
          rw [if_pos (show text "pcm" = tag "pcm" from rfl)]
          refine ⟨_, rfl, _, rfl, ⟨rfl, rfl, ?_, ?_⟩⟩
          · dsimp only; rw [if_neg (by omega)]; rfl
          · dsimp only
            rw [if_neg (by omega), if_pos (by rfl)]
            omega
      · rw [hc] at d
        rcases d with d | d | d
        · cases d
        · injection d with d
          subst d
          rw [if_neg (by decide), if_pos (.inl rfl)]
          exact ⟨_, rfl, _, rfl, ⟨rfl, rfl, rfl, rfl⟩⟩
        · injection d with d
          subst d
          rw [if_neg (by decide), if_pos (.inr rfl)]
          exact ⟨_, rfl, _, rfl, ⟨rfl, rfl, rfl, rfl⟩⟩
      · rw [hc] at d
        injection d with d
        subst d
        rw [if_neg (by decide), if_neg (by decide), if_pos (show text "alaw" = tag "alaw" from rfl)]
        exact ⟨_, rfl, _, rfl, ⟨rfl, rfl, rfl, rfl⟩⟩
  rintro _ ⟨f1, rfl, g1⟩
  dsimp only
  rw [Rd.bind_ok (l4 _ _ _)]
  dsimp only [Option.getD]
  refine Rd.step (Q := Good) (P := fun F => ∃ f : AFmt, F = some f ∧ NistF x k (if k.compression = NONE then 8 * x.bytes else 16) f ∧
    (k.compression = NONE → f.byteOrder = order) ∧ (k.compression ≠ NONE → f.byteOrder = native h)) ?_ ?_
  · rw [Rd.bind_ok (a := (w.length : Int)) (p' := 0 + 1024) rfl, hwl]
    rcases hcase with ⟨a, b, -, rfl, d⟩ | ⟨a, -, d⟩
    · rw [if_pos (by omega), Rd.bind_ok (a := w) (p' := 0 + 1024) rfl]
      refine ⟨_, rfl, _, rfl, ⟨g1.channels, g1.sampleFormat, g1.compression, g1.width⟩, fun _ => ?_, fun e => absurd rfl e⟩
      dsimp only
      have hbb : x.bytes = 2 ∨ x.bytes = 3 ∨ x.bytes = 4 := by omega
      rcases d with ⟨d, rfl⟩ | ⟨d, rfl⟩
      · rw [hw] at d; injection d with d; subst d
        rcases hbb with e | e | e <;> rw [e] <;> decide
      · rw [hw] at d; injection d with d; subst d
        rcases hbb with e | e | e <;> rw [e] <;> decide
    · rw [if_neg (by omega)]
      have hne : k.compression ≠ NONE := by
        rcases d with ⟨-, rfl⟩ | ⟨-, rfl⟩ <;> decide
      exact ⟨_, rfl, _, rfl, ⟨g1.channels, g1.sampleFormat, g1.compression, g1.width⟩, fun e => absurd e hne, fun _ => rfl⟩
  rintro _ ⟨f2, rfl, g2, o1, o2⟩
  dsimp only
  refine Rd.step (Q := Good) (P := fun r => (x.bits = none ∧ r = none) ∨ ∃ n : Nat, x.bits = some n ∧ r = some (some (n : Int))) ?_ ?_
  · rw [k5]
    cases hc : x.bits with
    | none =>
      refine ⟨none, nist_noint ok (by decide) (.inr rfl) (by decide) (fun g hg e => ?_) _ _ _, .inl ⟨rfl, rfl⟩⟩
      obtain ⟨w', e1, -⟩ := (hwhich g hg).2.2.2.2.2.1 e
      rw [hc] at e1; cases e1
    | some n =>
      have := ok.bits n hc
      refine ⟨_, nist_int ok (s := "sample_sig_bits") (n := n) (by decide) (.inr rfl) (by unfold Nist.says; rw [hc]; simp) (by decide)
        (fun g hg e => ?_) (by omega) _ _ _, .inr ⟨n, rfl, rfl⟩⟩
      obtain ⟨w', e1, e2⟩ := (hwhich g hg).2.2.2.2.2.1 e
      rw [hc] at e1; injection e1 with e1; rw [e2, e1]
  intro r hr
  refine Rd.step (Q := Good) (P := fun F => ∃ f : AFmt, F = some f ∧ NistF x k k.width f ∧
    (k.compression = NONE → f.byteOrder = order) ∧ (k.compression ≠ NONE → f.byteOrder = native h)) ?_ ?_
  · have hg711 : k.compression ≠ NONE → k.width = 16 := by
      intro hne
      rcases hcase with ⟨-, -, -, rfl, -⟩ | ⟨-, -, ⟨-, rfl⟩ | ⟨-, rfl⟩⟩
      · exact absurd rfl hne
      · rfl
      · rfl
    rcases hr with ⟨hc, rfl⟩ | ⟨n, hc, rfl⟩
    · refine ⟨_, rfl, _, rfl, ⟨g2.channels, g2.sampleFormat, g2.compression, ?_⟩, o1, o2⟩
      rw [g2.width]
      by_cases hz : k.compression = NONE
      · rw [if_pos hz]
        rcases hcase with ⟨-, -, -, rfl, -⟩ | ⟨-, -, ⟨-, rfl⟩ | ⟨-, rfl⟩⟩
        · rw [hc]; rfl
        · cases hz
        · cases hz
      · rw [if_neg hz, hg711 hz]
    · have hn := ok.bits n hc
      dsimp only [Option.getD]
      rw [Rd.bind_ok (a := (n : Int)) (p' := 0 + 1024) rfl, if_neg (by omega)]
      by_cases hcond : f2.compression = NONE ∧ ((n : Int) + 7).tdiv 8 = x.bytes
      · rw [if_pos hcond]
        refine ⟨_, rfl, _, rfl, ⟨g2.channels, g2.sampleFormat, g2.compression, ?_⟩, o1, o2⟩
        have hz := hcond.1
        rw [g2.compression] at hz
        have hq := hcond.2
        rw [Int.tdiv_eq_ediv_of_nonneg (by omega)] at hq
        rcases hcase with ⟨-, -, -, rfl, -⟩ | ⟨-, -, ⟨-, rfl⟩ | ⟨-, rfl⟩⟩
        · show (n : Int) = (((match x.bits with | some b => if (b + 7) / 8 = x.bytes then b else 8 * x.bytes | none => 8 * x.bytes) : Nat) : Int)
          rw [hc]
          dsimp only
          rw [if_pos (by omega)]
        · cases hz
        · cases hz
      · rw [if_neg hcond]
        refine ⟨_, rfl, _, rfl, ⟨g2.channels, g2.sampleFormat, g2.compression, ?_⟩, o1, o2⟩
        rw [g2.width]
        by_cases hz : k.compression = NONE
        · rw [if_pos hz]
          rcases hcase with ⟨-, -, -, rfl, -⟩ | ⟨-, -, ⟨-, rfl⟩ | ⟨-, rfl⟩⟩
          · show _ = (((match x.bits with | some b => if (b + 7) / 8 = x.bytes then b else 8 * x.bytes | none => 8 * x.bytes) : Nat) : Int)
            rw [hc]
            dsimp only
            rw [if_neg]
            intro hq
            exact hcond ⟨g2.compression, by rw [Int.tdiv_eq_ediv_of_nonneg (by omega)]; omega⟩
          · cases hz
          · cases hz
        · rw [if_neg hz, hg711 hz]
  rintro _ ⟨f3, rfl, g3, o3, o4⟩
  dsimp only
  have hrate := ok.rate
  rw [Rd.bind_ok (l6 _ _ _)]
  dsimp only
  rw [Rd.bind_ok (a := (x.rate : Int)) (p' := 0 + 1024) rfl, if_neg (by omega), Rd.bind_ok (l7 _ _ _)]
  dsimp only
  rw [Rd.bind_ok (a := (x.count : Int)) (p' := 0 + 1024) rfl]
  have hkf : k.sampleFormat = TWOSCOMP := by
    rcases hcase with ⟨-, -, -, rfl, -⟩ | ⟨-, -, ⟨-, rfl⟩ | ⟨-, rfl⟩⟩ <;> rfl
  obtain ⟨m, -, hm⟩ := set_self (f := { f3 with rate := (x.rate : Rat) }) (by
    show LegalWidth f3.sampleFormat f3.sampleWidth
    rw [g3.sampleFormat, g3.width, ← hkf]; exact good.1)
  have hm' : setSampleFormat { f3 with rate := (x.rate : Rat) } f3.sampleFormat f3.sampleWidth = (true, { f3 with rate := (x.rate : Rat), pcm := m }) := hm
  have hcast : (((x.rate : Nat) : Int) : Rat) = (x.rate : Rat) := by rfl
  rw [hcast, hm']
  dsimp only
  rw [if_neg (by simp), Rd.bind_ok (a := x.file.length) (p' := 0 + 1024) rfl]
  have hF : Found h (described x.rate x.channels order k) { f3 with rate := (x.rate : Rat) } :=
    ⟨rfl, g3.sampleFormat.trans hkf.symm, g3.width, g3.channels, g3.compression, fun hz _ => o3 hz⟩
  refine ⟨_, _, rfl, found_same good hF (by rw [hm]) (show (0 : Int) ≤ 1024 by decide) ?_ ?_ rfl, o4⟩
  · show (x.file.length : Int) - 1024 = _
    omega
  · show (x.file.drop 1024).take _ = _
    unfold Nist.file
    rw [← hlen, List.drop_left, List.take_length]

end AF.Foreign
