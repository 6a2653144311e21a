import Verif.Props.Files.Foreign
import Verif.Proof.ForeignNist
import Verif.Proof.ForeignSmp
/-!
# C77: NIST SPHERE and SampleVision files that other programs wrote
-/
namespace AF.Foreign
open AF AF.Setup AF.Files AF.Convert AF.Spec AF.Spec.Files AF.Spec.Formats AF.Spec.Setup AF.Spec.Foreign

variable (F32 : Files.Float32) (F64 : Files.Float64) (rnd : Rat → Dbl)

/-- C77, NIST SPHERE: the lines of the header in any order, with any others between them; PCM of 2 to 4 bytes in either byte order and of
fewer significant bits, and G.711. -/
theorem C77_nist (x : Nist) (ok : x.Ok) {k : Kind} {order : Int} (hk : x.kind = some (k, order)) (fuel : Nat) :
    Opens F32 F64 rnd fuel x.file (described x.rate x.channels order k) x.sound x.count := by
  refine opens_of' (u := .nist) (nist_good ok hk) ok.channels.1 ?_ fun h => ?_
  · unfold Nist.file Nist.header
    simp only [List.append_assoc]
    exact rfl
  · obtain ⟨t, p, h1, h2, h3⟩ := nist_found h x ok hk
    exact ⟨t, p, h1, h2, fun _ => h3⟩

/-- C77, SampleVision: any texts, loops, markers and note. -/
theorem C77_smp (x : Smp) (ok : x.Ok) (fuel : Nat) :
    Opens F32 F64 rnd fuel x.file (described x.rate 1 LITTLE (signed 16)) x.sound (x.sound.length / 2) := by
  refine opens_of (u := .smp) (good_signed (by decide)) (Nat.le_refl 1) ?_ (by decide) fun h => ?_
  · unfold Smp.file
    simp only [List.append_assoc]
    exact rfl
  · obtain ⟨t, r, p, h1, h2⟩ := smp_found h x ok
    refine ⟨t, p, ?_, h2⟩
    have e : readInit F32 F64 rnd h fuel .smp = (smpRead h >>= fun s => pure s.1) := by
      unfold readInit
      rfl
    rw [e, Rd.bind_ok h1]
    rfl

/-! ## Cases -/

/-- The lines of `exNist`: as TIMIT has them, with a text and a rate that is a real number besides. -/
def exNistLines : List SphereField :=
  [⟨text "database_id", text "-s5", text "TIMIT"⟩, ⟨text "utterance", text "-s12", text "\"sample_rate"⟩, sphereInt "sample_rate" 16000, sphereInt "channel_count" 1,
   sphereInt "sample_n_bytes" 2, sphereWord "sample_byte_format" (text "01"), sphereInt "sample_sig_bits" 12, sphereWord "sample_coding" (text "pcm"),
   ⟨text "gain", text "-r", text "0.5"⟩, sphereInt "sample_count" 3]

/-- Three frames of little-endian 12-bit mono. -/
def exNist : Nist :=
  { channels := 1, count := 3, rate := 16000, bytes := 2, order := some (text "01"), bits := some 12, coding := some (text "pcm")
    fields := exNistLines, pad := List.replicate 789 32, sound := [1, 0, 2, 0, 0xff, 0xff] }

/-- The same as µ-law. -/
def exNistLaw : Nist :=
  { channels := 1, count := 6, rate := 8000, bytes := 1, order := some (text "1"), bits := none, coding := some (text "ulaw")
    fields := [sphereInt "channel_count" 1, sphereInt "sample_count" 6, sphereInt "sample_rate" 8000, sphereInt "sample_n_bytes" 1,
      sphereWord "sample_byte_format" (text "1"), sphereWord "sample_coding" (text "ulaw")]
    pad := List.replicate 874 0, sound := [1, 0, 2, 0, 0xff, 0xff] }

/-- A note that follows the sound of three samples, at 22050 Hz. -/
def exSmp : Smp :=
  { name := text "Bass drum" ++ List.replicate 21 32, comment := List.replicate 60 0, sound := [1, 0, 2, 0, 0xff, 0xff], reserved := 0
    loops := List.replicate 88 255, markers := List.replicate 112 32, note := 36, rate := 22050, smpte := 0, cycle := 0xffffffff, more := [7] }

theorem exNist_ok : exNist.Ok := by
  have hf : ∀ f ∈ exNist.fields, (∀ b ∈ f.name, b ≠ 0 ∧ b ≠ 10 ∧ b ≠ 32) ∧ (∀ b ∈ f.type, b ≠ 0 ∧ b ≠ 10) ∧ (∀ b ∈ f.value, b ≠ 0 ∧ b ≠ 10) := by
    decide +kernel
  exact ⟨by decide, by decide, by decide, fun b hb => by cases hb; decide, fun e => absurd e (by decide),
    fun f m => ⟨(hf f m).1, (hf f m).2.1, (hf f m).2.2⟩, by decide +kernel, by decide +kernel,
    fun b hb => .inr (.inr (List.eq_of_mem_replicate hb)), by decide +kernel, by decide +kernel⟩

theorem exNistLaw_ok : exNistLaw.Ok := by
  have hf : ∀ f ∈ exNistLaw.fields, (∀ b ∈ f.name, b ≠ 0 ∧ b ≠ 10 ∧ b ≠ 32) ∧ (∀ b ∈ f.type, b ≠ 0 ∧ b ≠ 10) ∧ (∀ b ∈ f.value, b ≠ 0 ∧ b ≠ 10) := by
    decide +kernel
  exact ⟨by decide, by decide, by decide, (fun b hb => by cases hb), fun _ => ⟨49, rfl, by decide⟩,
    fun f m => ⟨(hf f m).1, (hf f m).2.1, (hf f m).2.2⟩, by decide +kernel, by decide +kernel,
    fun b hb => .inl (List.eq_of_mem_replicate hb), by decide +kernel, by decide +kernel⟩

example : exNist.kind = some (signed 12, LITTLE) ∧ exNistLaw.kind = some (muLaw, BIG) := by decide +kernel

theorem exSmp_ok : exSmp.Ok :=
  ⟨by decide +kernel, by decide, by decide, by decide, by decide, by decide⟩

/-! ## What does not hold -/

/-- `exNistLaw`, but of 8-bit PCM. -/
def exNistPcm8 : Nist :=
  { exNistLaw with coding := some (text "pcm")
                   fields := exNistLaw.fields.take 5 ++ [sphereWord "sample_coding" (text "pcm")]
                   pad := List.replicate 875 0 }

/-- `exNistLaw` without the order of its bytes. -/
def exNistNoOrder : Nist :=
  { exNistLaw with order := none, fields := exNistLaw.fields.take 4 ++ exNistLaw.fields.drop 5, pad := List.replicate 899 0 }

/-- Not so: that a file of 8-bit PCM is read as PCM, or refused. It is read as µ-law: `sample_coding` is `pcm`, and a single byte was
taken for µ-law before (NIST.cpp:254-270). -/
theorem C77_nist_pcm8_refuted (h : Endian) :
    exNistPcm8.coding = some (text "pcm") ∧ exNistPcm8.header.length = 1024 ∧
    ∃ t p, openRead F32 F64 rnd h 1000 exNistPcm8.file 0 = .ok (t, p) ∧ t.f.compression = ULAW := by
  refine ⟨rfl, by decide +kernel, ⟨⟨8000, 401, 16, native h, defaultMapping 401 16, 1, ULAW⟩, 1, 1, 1024, 0, 6, 6⟩, 1024, ?_, rfl⟩
  refine opened_from F32 F64 rnd (u := .nist) (by decide +kernel) ?_ (by cases h <;> rfl)
  show nistRead h exNistPcm8.file 0 = _
  cases h <;> decide +kernel

/-- Not so: that a G.711 file needs no order of the bytes. The library's own order is that of a track that was never assigned, and if it
is not that of the machine, the codec refuses the file. -/
theorem C77_nist_no_order_refuted (h : Endian) :
    exNistNoOrder.header.length = 1024 ∧ exNistNoOrder.bytes = 1 ∧
    openRead F32 F64 rnd h 1000 exNistNoOrder.file 0 = .error .fail := by
  refine ⟨by decide +kernel, rfl, ?_⟩
  have hid : identify exNistNoOrder.file 0 = .ok (some .nist, 0) := by decide +kernel
  have hr : readInit F32 F64 rnd h 1000 .nist exNistNoOrder.file 0 =
      .ok (⟨⟨8000, 401, 16, 0, defaultMapping 401 16, 1, ULAW⟩, 1, 1, 1024, 0, 6, 6⟩, 1024) := by
    show nistRead h exNistNoOrder.file 0 = _
    cases h <;> decide +kernel
  unfold openRead
  rw [Rd.bind_ok hid]
  dsimp only
  rw [Rd.bind_ok hr]
  cases h <;> rfl

end AF.Foreign
