import Verif.Model.Buffers
/-! Every conversion module of a chain `arrange` makes stays within frames of the formats its chunks are described to have. -/
namespace AF.Buffers
open AF.Convert

theorem lastFormat_append (g : Fmt) (ms : List Module) (m : Module) : lastFormat g (ms ++ [m]) = m.describe (lastFormat g ms) := by
  simp [lastFormat]

/-- A module reads and stores no more than a frame of the formats before and behind it. -/
structure Step (m : Module) (g : Fmt) : Prop where
  i : inSample m ≤ g.bytesPerSample true
  ic : inChannels m g = g.channels
  o : outSample m ≤ (m.describe g).bytesPerSample true
  oc : outChannels m g = (m.describe g).channels

def Fits : List Module → Fmt → Prop
  | [], _ => True
  | m :: ms, g => Step m g ∧ Fits ms (m.describe g)

theorem fits_append (ms : List Module) (m : Module) (g : Fmt) (h1 : Fits ms g) (h2 : Step m (lastFormat g ms)) : Fits (ms ++ [m]) g := by
  induction ms generalizing g with
  | nil => exact ⟨h2, trivial⟩
  | cons a ms ih => exact ⟨h1.1, ih _ h1.2 h2⟩

theorem code_bytes {g : Fmt} {fc : FC} (h : g.code = some fc) : g.bytesPerSample false = fc.bytes := by
  cases hs : g.sampleFormat <;> simp only [Fmt.code, hs] at h
  case float => cases h; simp [Fmt.bytesPerSample, hs, FC.bytes]
  case double => cases h; simp [Fmt.bytesPerSample, hs, FC.bytes]
  all_goals
    split at h <;> first | (cases h; assumption) | (cases h; done)

theorem code_storage {g : Fmt} {fc : FC} (h : g.code = some fc) (hc : g.compressed = false) : g.bytesPerSample true = fc.storage := by
  have hb := code_bytes h
  cases hs : g.sampleFormat <;> simp only [Fmt.code, hs] at h
  case float => cases h; simp [Fmt.bytesPerSample, hs, FC.storage]
  case double => cases h; simp [Fmt.bytesPerSample, hs, FC.storage]
  all_goals
    simp only [Fmt.bytesPerSample, hs, hc] at hb h ⊢
    simp only [Bool.not_false, Bool.false_eq_true, and_false, if_false, true_and] at hb h ⊢
    split at h <;> first | (cases h; simp_all [FC.storage, FC.bytes]; done) | (cases h; done)

theorem bytes_le_storage (c : FC) : c.bytes ≤ c.storage := by cases c <;> decide

theorem code_integer {g : Fmt} {fc : FC} (h : g.code = some fc) : g.isInteger = fc.isInteger := by
  cases hs : g.sampleFormat <;> simp only [Fmt.code, hs] at h
  case float => cases h; simp [Fmt.isInteger, hs, FC.isInteger]
  case double => cases h; simp [Fmt.isInteger, hs, FC.isInteger]
  all_goals
    split at h <;> first | (cases h; simp [Fmt.isInteger, hs, FC.isInteger]; done) | (cases h; done)

/-- The code only looks at sample format and width. -/
theorem code_same {g g' : Fmt} (h1 : g.sampleFormat = g'.sampleFormat) (h2 : g.width = g'.width) : g.code = g'.code := by
  simp [Fmt.code, Fmt.bytesPerSample, h1, h2]

theorem code_twos {g : Fmt} {fc : FC} (hs : g.sampleFormat = .twos ∨ g.sampleFormat = .unsigned) (hw : g.width = 8 * fc.bytes) (hf : fc.isInteger = true) :
    g.code = some fc := by
  rcases hs with hs | hs <;> cases fc <;> simp_all [Fmt.code, Fmt.bytesPerSample, FC.bytes, FC.isInteger]

theorem code_float {g : Fmt} {fc : FC} (hs : g.sampleFormat = if fc = .double then .double else .float) (hf : fc.isInteger = false) : g.code = some fc := by
  cases fc <;> simp_all [Fmt.code, FC.isInteger]

variable {S : Nat → Prop}

/-- A chain under construction, started at `g0`: it fits, and its end is an uncompressed format of code `fc`, `n` channels;
all its formats are uncompressed and have a number of channels in `S`. -/
structure Inv (S : Nat → Prop) (c : Chain) (g0 : Fmt) (fc : FC) (n : Nat) : Prop where
  all : ∀ g ∈ chunkFormats g0 c.mods, (∃ fc, g.code = some fc) ∧ g.compressed = false ∧ S g.channels
  fits : Fits c.mods g0
  sf : c.f.sampleFormat = (lastFormat g0 c.mods).sampleFormat
  wd : c.f.width = (lastFormat g0 c.mods).width
  code : (lastFormat g0 c.mods).code = some fc
  unc : (lastFormat g0 c.mods).compressed = false
  ch : (lastFormat g0 c.mods).channels = n

theorem describe_same (m : Module) (f g : Fmt) (h1 : f.sampleFormat = g.sampleFormat) (h2 : f.width = g.width) :
    (m.describe f).sampleFormat = (m.describe g).sampleFormat ∧ (m.describe f).width = (m.describe g).width := by
  cases m <;> simp [Module.describe, h1, h2]

theorem describe_unc (m : Module) (g : Fmt) : (m.describe g).compressed = g.compressed := by
  cases m <;> rfl

theorem chunkFormats_append (g : Fmt) (ms : List Module) (m : Module) :
    chunkFormats g (ms ++ [m]) = chunkFormats g ms ++ [m.describe (lastFormat g ms)] := by
  induction ms generalizing g with
  | nil => rfl
  | cons a ms ih => exact congrArg (g :: ·) (ih _)

theorem lastFormat_mem (g : Fmt) (ms : List Module) : lastFormat g ms ∈ chunkFormats g ms := by
  induction ms generalizing g with
  | nil => exact List.mem_singleton.2 rfl
  | cons a ms ih => exact List.mem_cons_of_mem _ (ih _)

theorem first_mem (g : Fmt) (ms : List Module) : g ∈ chunkFormats g ms := by
  cases ms <;> simp [chunkFormats]

theorem Inv.mem {c : Chain} {g0 : Fmt} {fc : FC} {n : Nat} (h : Inv S c g0 fc n) : S n :=
  h.ch ▸ (h.all _ (lastFormat_mem _ _)).2.2

theorem Inv.add {c : Chain} {g0 : Fmt} {fc : FC} {n : Nat} (h : Inv S c g0 fc n) (m : Module) (fc' : FC) (n' : Nat)
    (hs : Step m (lastFormat g0 c.mods)) (hc : (m.describe (lastFormat g0 c.mods)).code = some fc')
    (hn : (m.describe (lastFormat g0 c.mods)).channels = n') (hS : S n') : Inv S (c.add m) g0 fc' n' := by
  have e := lastFormat_append g0 c.mods m
  have d := describe_same m _ _ h.sf h.wd
  refine ⟨?_, fits_append _ _ _ h.fits hs, ?_, ?_, ?_, ?_, ?_⟩
  · intro g hg
    have hg : g ∈ chunkFormats g0 (c.mods ++ [m]) := hg
    rw [chunkFormats_append] at hg
    rcases List.mem_append.1 hg with hg | hg
    · exact h.all g hg
    · cases List.mem_singleton.1 hg
      exact ⟨⟨_, hc⟩, (describe_unc _ _).trans h.unc, by rw [hn]; exact hS⟩
  · show (m.describe c.f).sampleFormat = (lastFormat g0 (c.mods ++ [m])).sampleFormat
    rw [e]; exact d.1
  · show (m.describe c.f).width = (lastFormat g0 (c.mods ++ [m])).width
    rw [e]; exact d.2
  · show (lastFormat g0 (c.mods ++ [m])).code = _
    rw [e]; exact hc
  · show (lastFormat g0 (c.mods ++ [m])).compressed = _
    rw [e, describe_unc]; exact h.unc
  · show (lastFormat g0 (c.mods ++ [m])).channels = _
    rw [e]; exact hn

theorem Inv.addIf {c : Chain} {g0 : Fmt} {fc fc' : FC} {n n' : Nat} (h : Inv S c g0 fc n) {b : Bool} {m : Module}
    (ht : b = true → Inv S (c.add m) g0 fc' n') (hf : b = false → fc = fc' ∧ n = n') : Inv S (c.addIf b m) g0 fc' n' := by
  unfold Chain.addIf
  cases b with
  | true => exact ht rfl
  | false => obtain ⟨rfl, rfl⟩ := hf rfl; exact h

section modules
variable {c : Chain} {g0 : Fmt} {fc : FC} {n : Nat}

theorem Inv.swap (h : Inv S c g0 fc n) : Inv S (c.add (.swap (c.f.bytesPerSample false))) g0 fc n := by
  have hb : c.f.bytesPerSample false = fc.bytes := code_bytes ((code_same h.sf h.wd).trans h.code)
  have e := code_storage h.code h.unc
  have d : (Module.describe (.swap (c.f.bytesPerSample false)) (lastFormat g0 c.mods)).code = some fc :=
    (code_same rfl rfl).trans h.code
  refine h.add _ _ _ ⟨?_, rfl, ?_, rfl⟩ d h.ch h.mem
  · rw [e]; exact hb ▸ bytes_le_storage fc
  · rw [code_storage d ((describe_unc _ _).trans h.unc)]; exact hb ▸ bytes_le_storage fc

/-- Modules that keep the sample format, the width and the channels. -/
theorem Inv.keep (h : Inv S c g0 fc n) (m : Module) (hi : inSample m ≤ fc.storage) (ho : outSample m ≤ fc.storage)
    (hic : inChannels m (lastFormat g0 c.mods) = (lastFormat g0 c.mods).channels)
    (hoc : outChannels m (lastFormat g0 c.mods) = (lastFormat g0 c.mods).channels)
    (hd : (m.describe (lastFormat g0 c.mods)).channels = (lastFormat g0 c.mods).channels)
    (hc : (m.describe (lastFormat g0 c.mods)).code = some fc) : Inv S (c.add m) g0 fc n := by
  have e := code_storage h.code h.unc
  exact h.add _ _ _ ⟨e ▸ hi, hic, (code_storage hc ((describe_unc _ _).trans h.unc)) ▸ ho, hoc.trans hd.symm⟩ hc (hd.trans h.ch) h.mem

theorem Inv.expand (h : Inv S c g0 .int24 n) (s : Bool) : Inv S (c.add (.expand3to4 s)) g0 .int24 n :=
  h.keep _ (show 3 ≤ 4 by decide) (show 4 ≤ 4 by decide) rfl rfl rfl ((code_same rfl rfl).trans h.code)

theorem Inv.compress (h : Inv S c g0 .int24 n) (s : Bool) : Inv S (c.add (.compress4to3 s)) g0 .int24 n :=
  h.keep _ (show 4 ≤ 4 by decide) (show 3 ≤ 4 by decide) rfl rfl rfl ((code_same rfl rfl).trans h.code)

theorem code_int_sf {g : Fmt} (h : g.code = some fc) (hf : fc.isInteger = true) : g.sampleFormat = .twos ∨ g.sampleFormat = .unsigned := by
  have := code_integer h
  rw [hf] at this
  simpa [Fmt.isInteger] using this

theorem Inv.sign (h : Inv S c g0 fc n) (hf : fc.isInteger = true) (b : Bool) : Inv S (c.add (.sign fc b)) g0 fc n := by
  refine h.keep _ (Nat.le_refl _) (Nat.le_refl _) rfl rfl rfl ?_
  have hs := code_int_sf h.code hf
  have hc := h.code
  rcases hs with hs | hs <;> cases b <;> simp only [Fmt.code, Module.describe, hs, Fmt.bytesPerSample] at hc ⊢ <;> exact hc

theorem Inv.clip (h : Inv S c g0 fc n) (p : PCM) : Inv S (c.add (.clip fc p)) g0 fc n :=
  h.keep _ (Nat.le_refl _) (Nat.le_refl _) rfl rfl rfl ((code_same rfl rfl).trans h.code)

theorem Inv.transform (h : Inv S c g0 fc n) (p q : PCM) : Inv S (c.add (.transform fc p q)) g0 fc n :=
  h.keep _ (Nat.le_refl _) (Nat.le_refl _) rfl rfl rfl ((code_same rfl rfl).trans h.code)

theorem Inv.matrix (h : Inv S c g0 fc n) (k : Nat) (hk : S k) (a b : Rat) : Inv S (c.add (.channelMatrix fc n k a b)) g0 fc k := by
  have d : (Module.describe (.channelMatrix fc n k a b) (lastFormat g0 c.mods)).code = some fc := (code_same rfl rfl).trans h.code
  exact h.add _ _ _ ⟨(code_storage h.code h.unc) ▸ Nat.le_refl _, h.ch.symm,
    (code_storage d ((describe_unc _ _).trans h.unc)) ▸ Nat.le_refl _, rfl⟩ d rfl hk

theorem Inv.change (h : Inv S c g0 fc n) (m : Module) (o : FC) (hi : inSample m = fc.storage) (ho : outSample m = o.storage)
    (hic : inChannels m (lastFormat g0 c.mods) = (lastFormat g0 c.mods).channels)
    (hoc : outChannels m (lastFormat g0 c.mods) = (lastFormat g0 c.mods).channels)
    (hd : (m.describe (lastFormat g0 c.mods)).channels = (lastFormat g0 c.mods).channels)
    (hc : (m.describe (lastFormat g0 c.mods)).code = some o) : Inv S (c.add m) g0 o n :=
  h.add _ _ _ ⟨(code_storage h.code h.unc) ▸ Nat.le_of_eq hi, hic,
    (code_storage hc ((describe_unc _ _).trans h.unc)) ▸ Nat.le_of_eq ho, hoc.trans hd.symm⟩ hc (hd.trans h.ch) h.mem

theorem Inv.intToFloat (h : Inv S c g0 fc n) (o : FC) (ho : o.isInteger = false) : Inv S (c.add (.intToFloat fc o)) g0 o n :=
  h.change _ o rfl rfl rfl rfl rfl (code_float rfl ho)

theorem Inv.convertFloat (h : Inv S c g0 fc n) (o : FC) (ho : o.isInteger = false) : Inv S (c.add (.convertFloat fc o)) g0 o n :=
  h.change _ o rfl rfl rfl rfl rfl (code_float rfl ho)

theorem Inv.convertInt (h : Inv S c g0 fc n) (o : FC) (hi : fc.isInteger = true) (ho : o.isInteger = true) :
    Inv S (c.add (.convertInt fc o)) g0 o n :=
  h.change _ o rfl rfl rfl rfl rfl (code_twos (code_int_sf (g := lastFormat g0 c.mods) h.code hi) rfl ho)

theorem Inv.floatToInt (h : Inv S c g0 fc n) (o : FC) (p q : PCM) (ho : o.isInteger = true) :
    Inv S (c.add (.floatToInt fc o p q)) g0 o n :=
  h.change _ o rfl rfl rfl rfl rfl (code_twos (.inl rfl) rfl ho)

end modules

theorem unsigned_integer {f : Fmt} {fc : FC} (h : f.code = some fc) (hu : f.isUnsigned = true) : fc.isInteger = true := by
  rw [← code_integer h]
  simp [Fmt.isUnsigned] at hu
  simp [Fmt.isInteger, hu]

theorem three_int24 {f : Fmt} {fc : FC} (h : f.code = some fc) (hi : f.isInteger = true) (h3 : f.bytesPerSample false = 3) : fc = .int24 := by
  have e := code_bytes h
  have i := code_integer h
  rw [hi] at i
  rw [h3] at e
  cases fc <;> first | rfl | exact absurd e (by decide) | exact absurd i (by decide)

theorem toNative_inv {h : Endian} {r : Bool} {i : Fmt} {c : Chain} {g0 : Fmt} {fc : FC} {n : Nat} (hi : Inv S c g0 fc n) :
    Inv S (toNative h r i c) g0 fc n := hi.addIf (fun _ => hi.swap) fun _ => ⟨rfl, rfl⟩

theorem toSigned_inv {r : Bool} {i : Fmt} {c : Chain} {g0 : Fmt} {fc : FC} {n : Nat} (hi : Inv S c g0 fc n) (hc : i.code = some fc) :
    Inv S (toSigned r i fc c) g0 fc n := by
  unfold toSigned
  dsimp only
  refine Inv.addIf (fc := fc) (n := n) ?_ (fun hu => Inv.sign ?_ (unsigned_integer hc hu) _) fun _ => ⟨rfl, rfl⟩ <;>
    refine hi.addIf (fun hb => ?_) fun _ => ⟨rfl, rfl⟩ <;>
    · have hb := of_decide_eq_true hb
      have := three_int24 hc hb.1 hb.2.1
      subst this
      exact hi.expand _

theorem toOutput_inv {h : Endian} {r : Bool} {o : Fmt} {c : Chain} {g0 : Fmt} {fc : FC} {n : Nat} (hi : Inv S c g0 fc n) (hc : o.code = some fc) :
    Inv S (toOutput h r o fc c) g0 fc n := by
  unfold toOutput
  dsimp only
  have h1 : Inv S (c.addIf o.isUnsigned (.sign fc true)) g0 fc n :=
    hi.addIf (fun hu => hi.sign (unsigned_integer hc hu) _) fun _ => ⟨rfl, rfl⟩
  generalize c.addIf o.isUnsigned (.sign fc true) = c1 at h1 ⊢
  have h2 : Inv S (c1.addIf (o.isInteger ∧ o.bytesPerSample false = 3 ∧ (!r ∨ o.compressed)) (.compress4to3 o.isSigned)) g0 fc n := by
    refine h1.addIf (fun hb => ?_) fun _ => ⟨rfl, rfl⟩
    have hb := of_decide_eq_true hb
    have := three_int24 hc hb.1 hb.2.1
    subst this
    exact h1.compress _
  generalize c1.addIf (o.isInteger ∧ o.bytesPerSample false = 3 ∧ (!r ∨ o.compressed)) (.compress4to3 o.isSigned) = c2 at h2 ⊢
  exact h2.addIf (fun _ => h2.swap) fun _ => ⟨rfl, rfl⟩

theorem middle_inv {i o : Fmt} {ip op : PCM} {infc outfc : FC} {c : Chain} {g0 : Fmt} (hi : Inv S c g0 infc i.channels) (ho : S o.channels) :
    Inv S (middle i o ip op infc outfc c) g0 outfc o.channels := by
  unfold middle
  dsimp only
  have h1 : Inv S (c.addIf (ip.minClip < ip.maxClip ∧ !isTrivialIntClip ip infc) (.clip infc ip)) g0 infc i.channels :=
    hi.addIf (fun _ => hi.clip _) fun _ => ⟨rfl, rfl⟩
  generalize c.addIf (ip.minClip < ip.maxClip ∧ !isTrivialIntClip ip infc) (.clip infc ip) = c1 at h1 ⊢
  generalize transforming ip op infc outfc = tr
  generalize hfc : (if infc.isInteger ∧ tr then if infc = .int32 ∨ outfc = .double ∨ outfc = .int32 then FC.double else .float else infc) = fc'
  have h2 : Inv S (c1.addIf (infc.isInteger ∧ tr) (.intToFloat infc fc')) g0 fc' i.channels := by
    refine h1.addIf (fun hb => ?_) fun hb => ⟨?_, rfl⟩
    · rw [if_pos (of_decide_eq_true hb)] at hfc
      refine h1.intToFloat _ ?_
      rw [← hfc]
      split <;> rfl
    · rw [if_neg (of_decide_eq_false hb)] at hfc
      exact hfc
  generalize c1.addIf (infc.isInteger ∧ tr) (.intToFloat infc fc') = c2 at h2 ⊢
  have h3 : Inv S (c2.addIf (tr ∧ fc' = .double ∧ outfc.isFloat) (.transform fc' ip op)) g0 fc' i.channels :=
    h2.addIf (fun _ => h2.transform _ _) fun _ => ⟨rfl, rfl⟩
  generalize c2.addIf (tr ∧ fc' = .double ∧ outfc.isFloat) (.transform fc' ip op) = c3 at h3 ⊢
  have h4 : Inv S (if fc'.isInteger ∧ outfc.isInteger then (c3.addIf (fc' ≠ outfc) (.convertInt fc' outfc), false)
    else if fc'.isInteger then (c3.add (.intToFloat fc' outfc), false)
    else if outfc.isInteger then (c3.add (.floatToInt fc' outfc ip op), true)
    else (c3.addIf (fc' ≠ outfc) (.convertFloat fc' outfc), false)).1 g0 outfc i.channels := by
    split
    · rename_i hb
      exact h3.addIf (fun _ => h3.convertInt _ hb.1 hb.2) fun hn => ⟨by simpa using hn, rfl⟩
    · rename_i hb
      split
      · rename_i ha
        refine h3.intToFloat _ ?_
        cases ho : outfc.isInteger
        · rfl
        · exact absurd ⟨ha, ho⟩ hb
      · split
        · rename_i ho
          exact h3.floatToInt _ _ _ ho
        · rename_i ho
          exact h3.addIf (fun _ => h3.convertFloat _ (by simpa using ho)) fun hn => ⟨by simpa using hn, rfl⟩
  generalize (if fc'.isInteger ∧ outfc.isInteger then (c3.addIf (fc' ≠ outfc) (.convertInt fc' outfc), false)
    else if fc'.isInteger then (c3.add (.intToFloat fc' outfc), false)
    else if outfc.isInteger then (c3.add (.floatToInt fc' outfc ip op), true)
    else (c3.addIf (fc' ≠ outfc) (.convertFloat fc' outfc), false)) = cd at h4 ⊢
  obtain ⟨c4, done⟩ := cd
  dsimp only at h4 ⊢
  have h5 : Inv S (c4.addIf (tr ∧ !done ∧ fc' ≠ .double) (.transform outfc ip op)) g0 outfc i.channels :=
    h4.addIf (fun _ => h4.transform _ _) fun _ => ⟨rfl, rfl⟩
  generalize c4.addIf (tr ∧ !done ∧ fc' ≠ .double) (.transform outfc ip op) = c5 at h5 ⊢
  have h6 : Inv S (c5.addIf (i.channels ≠ o.channels) (.channelMatrix outfc i.channels o.channels ip.minClip ip.maxClip)) g0 outfc o.channels :=
    h5.addIf (fun _ => h5.matrix _ ho _ _) fun hn => ⟨rfl, by simpa using hn⟩
  generalize c5.addIf (i.channels ≠ o.channels) (.channelMatrix outfc i.channels o.channels ip.minClip ip.maxClip) = c6 at h6 ⊢
  exact h6.addIf (fun _ => h6.clip _) fun _ => ⟨rfl, rfl⟩

/-- The chain from `i` to `o`, run on chunks that start in an uncompressed format like `i`: every module stays within frames of
its chunks, and the last chunk has the samples and channels of `o`. -/
theorem arrange_fits {h : Endian} {r : Bool} {i o g0 : Fmt} {c : Chain} (ha : arrange h r i o = some c) (h1 : g0.sampleFormat = i.sampleFormat)
    (h2 : g0.width = i.width) (h3 : g0.channels = i.channels) (h4 : g0.compressed = false) :
    ∃ fc, o.code = some fc ∧ Inv (fun n => n = i.channels ∨ n = o.channels) c g0 fc o.channels := by
  unfold arrange at ha
  split at ha
  · rename_i infc outfc e1 e2
    cases ha
    have e0 := (code_same h1 h2).trans e1
    have h0 : Inv (fun n => n = i.channels ∨ n = o.channels) ⟨[], i⟩ g0 infc i.channels :=
      ⟨fun g hg => by cases List.mem_singleton.1 hg; exact ⟨⟨_, e0⟩, h4, .inl h3⟩, trivial, h1.symm, h2.symm, e0, h4, h3⟩
    exact ⟨outfc, e2, toOutput_inv (middle_inv (toSigned_inv (toNative_inv h0) e1) (.inr rfl)) e2⟩
  · cases ha

end AF.Buffers
