import Verif.Proof.Identify
import Verif.Model.Files.Raw
import Verif.Props.Files.NIST
import Verif.Props.Files.SampleVision
import Verif.Props.Files.VOC
import Verif.Props.Files.WAVE
import Verif.Props.Files.AIFF
import Verif.Props.Files.IFF
import Verif.Props.Files.CAF
import Verif.Proof.Files.CafPackets
/-!
# C39: recognising files
-/
namespace AF.Files
open AF AF.Setup AF.Spec.Files

/-- C39: at most one format has its signature in a file. -/
theorem C39_signatures_exclusive (file : List Byte) (u v : FileFormat) (hu : HasSignature file u) (hv : HasSignature file v) :
    u = v := signature_unique hu hv

/-- C39: identifying any file gives the format whose signature the file has, or says that there is none, and leaves the position
of the file where it was. -/
theorem C39_identify (file : List Byte) (p : Nat) :
    ∃ r, identify file p = .ok (r, p) ∧ ∀ u, r = some u ↔ HasSignature file u := by
  obtain ⟨r, p', h1, h2, h3⟩ := firstOf_spec FileFormat.all file p
  refine ⟨r, ?_, fun u => ⟨h2 u, fun hu => ?_⟩⟩
  · unfold identify
    rw [Rd.bind_ok (m := Rd.tell) (a := p) (p' := p) rfl, Rd.bind_ok h1, Rd.bind_ok (a := ()) (p' := p) rfl]
    rfl
  · cases hr : r with
    | none => exact absurd hu (h3 hr u (formats_complete u))
    | some v => rw [signature_unique (h2 v hr) hu]

theorem identify_of {file : List Byte} {u : FileFormat} (h : HasSignature file u) (p : Nat) : identify file p = .ok (some u, p) := by
  obtain ⟨r, h1, h2⟩ := C39_identify file p
  rw [h1, (h2 u).2 h]

theorem At.start {a file rest : List Byte} (h : file = a ++ rest) : At file 0 a := by
  unfold At
  rw [h, List.drop_zero, List.take_left]

theorem At.pre {a file : List Byte} (h : a <+: file) : At file 0 a := At.start h.choose_spec.symm

theorem At.pair {a b file : List Byte} {n : Nat} (ha : a.length = n) (h : a ++ b <+: file) : At file 0 a ∧ At file n b := by
  obtain ⟨r, rfl⟩ := h
  constructor
  · exact At.pre ⟨b ++ r, by rw [List.append_assoc]⟩
  · unfold At
    rw [List.append_assoc, List.drop_left' ha, List.take_left]

theorem pre2 {a b r : List Byte} (h : a <+: b) : a <+: b ++ r := h.trans (List.prefix_append _ _)


theorem At.form {a l b file : List Byte} (ha : a.length = 4) (hl : l.length = 4) (h : a ++ l ++ b <+: file) :
    At file 0 a ∧ At file 8 b := by
  constructor
  · exact At.pre ((List.prefix_append _ _).trans ((List.prefix_append _ _).trans h))
  · exact (At.pair (n := 8) (by rw [List.length_append, ha, hl]) h).2

theorem nistHeader_pre (t : Trk) : nistMagic <+: nistHeader t := by
  unfold nistHeader nistText
  simp only [List.append_assoc]
  exact List.prefix_append _ _

/-- C39: every file the library writes is identified as the format it was written in (the formats without markers and
miscellaneous data). -/
theorem C39_written_simple (h : Endian) (f : AFmt) (evs : List Ev) (p : Nat) :
    identify (session (nextUpdate h) (nextInit h f) evs) p = .ok (some .next, p) ∧
    (∀ name, identify (session (avrUpdate h) (avrInit h name f) evs) p = .ok (some .avr, p)) ∧
    (∀ F s, ircamInit F h f = some s → identify (session ircamUpdate s evs) p = .ok (some .ircam, p)) ∧
    identify (session (smpUpdate h) (smpInit h f) evs) p = .ok (some .smp, p) ∧
    identify (session (vocUpdate h) (vocInit h f) evs) p = .ok (some .voc, p) ∧
    (∀ s, nistInit f = some s → identify (session nistUpdate s evs) p = .ok (some .nist, p)) ∧
    (∀ F, f.compression ≠ ALAC → identify (session (cafUpdate h) (cafInit F h f) evs) p = .ok (some .caf, p)) := by
  refine ⟨?_, fun name => ?_, fun F s hs => ?_, ?_, ?_, fun s hs => ?_, fun F hc => ?_⟩
  · obtain ⟨t, d, h1, -⟩ := next_file h f evs
    refine identify_of (u := .next) ?_ p
    rw [h1, nextHeader]
    exact At.pre (by repeat' (first | exact List.prefix_append _ _ | apply pre2))
  · obtain ⟨R, h1, -⟩ := avr_file h name f evs
    refine identify_of (u := .avr) ?_ p
    rw [h1, avrA]
    exact At.pre (by repeat' (first | exact List.prefix_append _ _ | apply pre2))
  · have hp : ∃ pack, ircamPack f = some pack := by
      unfold ircamInit at hs
      cases hq : ircamPack f with
      | none => rw [hq] at hs; cases hs
      | some x => exact ⟨x, rfl⟩
    obtain ⟨pack, hp⟩ := hp
    obtain ⟨s', h1, h2⟩ := ircam_file F h f hp evs
    rw [hs] at h1
    injection h1 with h1
    subst h1
    refine identify_of (u := .ircam) ?_ p
    rw [h2, ircamHead]
    simp only [List.append_assoc]
    cases h
    · exact ⟨1, by decide, .inl (At.start rfl)⟩
    · exact ⟨2, by decide, .inl (At.start rfl)⟩
  · obtain ⟨R, h1⟩ := smp_file h f evs
    refine identify_of (u := .smp) ?_ p
    rw [h1, smpTop, smpMagic]
    exact At.pre (by repeat' (first | exact List.prefix_append _ _ | apply pre2))
  · obtain ⟨t, R, h1, -⟩ := voc_file h f evs
    refine identify_of (u := .voc) ?_ p
    rw [h1, vocStart, vocMagic]
    exact At.pre (by repeat' (first | exact List.prefix_rfl | apply pre2))
  · refine identify_of (u := .nist) ?_ p
    unfold session step
    generalize evs.foldl (step nistUpdate) (s.1.seek s.2.1.first.toNat, s.2) = z
    obtain ⟨d, t, x⟩ := z
    dsimp only [nistUpdate]
    rw [Disk.write_zero]
    exact At.pre (pre2 (nistHeader_pre _))
  · have h1 := caf_file F h hc evs
    refine identify_of (u := .caf) ?_ p
    rw [h1, cafHead]
    exact At.pair (by decide +kernel) (by repeat' (first | exact List.prefix_append _ _ | apply pre2))

/-- C39: … a WAVE file … -/
theorem C39_written_wave (h : Endian) (ops : List Setup.Op) (o : Opened) (f : AFmt) (evs : List MEv) (file : List Byte)
    (x : WaveObj) (hw : WaveWritten h ops o f evs file x) (hsize : ∀ m ∈ o.handle.misc, 0 ≤ m.size) (p : Nat) :
    identify file p = .ok (some .wave, p) := by
  obtain ⟨s', ho⟩ := hw.opened
  obtain ⟨tr, ht, hid, hl, hF, hlf, hc⟩ := opened ho hw.format
  obtain ⟨M, b, l, htr, hnm, hmisc⟩ := opened_meta ho hc
  have hsz : ∀ m ∈ o.handle.misc, Sized m := by
    intro m hm
    refine ⟨hsize m hm, ?_⟩
    rw [hmisc] at hm
    obtain ⟨a, ha, rfl⟩ := List.mem_map.1 hm
    intro b hb
    cases hb
  obtain ⟨-, hfile⟩ := wave_file h o.handle (o.names.headD []) f hsz evs hw.session
  rw [waveHead] at hfile
  refine identify_of (u := .wave) ?_ p
  generalize hL : fieldBytes h .little .s4 ((file.length : Int) - 8) = L at hfile
  have hl4 : L.length = 4 := by rw [← hL, fieldBytes_length]
  refine At.form (a := tag "RIFF") (l := L) (b := tag "WAVE") (by decide +kernel) hl4 ?_
  rw [hfile]
  exact (by repeat' (first | exact List.prefix_rfl | apply pre2))

/-- C39: … an AIFF or AIFF-C file … -/
theorem C39_written_aiff (h : Endian) (aifc : Bool) (ops : List Setup.Op) (o : Opened) (f : AFmt) (evs : List MEv) (file : List Byte)
    (x : AiffObj) (hw : AiffWritten h aifc ops o f evs file x) (hsize : ∀ m ∈ o.handle.misc, 0 ≤ m.size) (p : Nat) :
    identify file p = .ok (some (if aifc then .aiffc else .aiff), p) := by
  obtain ⟨s', ho⟩ := hw.opened
  obtain ⟨tr, ht, hid, hl, hF, hlf, hc⟩ := opened ho hw.format
  obtain ⟨M, b, l, htr, hnm, hmisc⟩ := opened_meta ho hc
  have hsz : ∀ m ∈ o.handle.misc, Sized m := by
    intro m hm
    refine ⟨hsize m hm, ?_⟩
    rw [hmisc] at hm
    obtain ⟨a, ha, rfl⟩ := List.mem_map.1 hm
    intro b hb
    cases hb
  obtain ⟨-, hfile⟩ := aiff_file h aifc o.handle (o.names.headD []) f hsz evs hw.session
  rw [formStart] at hfile
  generalize hL : fieldBytes h .big .s4 ((file.length : Int) - 8) = L at hfile
  have hl4 : L.length = 4 := by rw [← hL, fieldBytes_length]
  cases aifc
  · refine identify_of (u := .aiff) ?_ p
    refine At.form (a := tag "FORM") (l := L) (b := tag "AIFF") (by decide +kernel) hl4 ?_
    rw [hfile]
    exact (by repeat' (first | exact List.prefix_rfl | apply pre2))
  · refine identify_of (u := .aiffc) ?_ p
    refine At.form (a := tag "FORM") (l := L) (b := tag "AIFC") (by decide +kernel) hl4 ?_
    rw [hfile]
    exact (by repeat' (first | exact List.prefix_rfl | apply pre2))

/-- C39: … an IFF file of less than 4 GiB … -/
theorem C39_written_iff (h : Endian) (ops : List Setup.Op) (o : Opened) (f : AFmt) (evs : List MEv) (file : List Byte)
    (x : IffObj) (hw : IffWritten h ops o f evs file x) (hfit : IffFits o evs file) (p : Nat) :
    identify file p = .ok (some .iff, p) := by
  obtain ⟨s', ho⟩ := hw.opened
  obtain ⟨tr, ht, hid, hl, hF, hlf, hc⟩ := opened ho hw.format
  obtain ⟨M, b, l, htr, hnm, hmisc⟩ := opened_meta ho hc
  have hsz : ∀ m ∈ o.handle.misc, Sized m := by
    intro m hm
    have hsz := (hfit.misc m hm).1
    rw [hmisc] at hm
    obtain ⟨a, ha, rfl⟩ := List.mem_map.1 hm
    exact ⟨hsz, fun b hb => by cases hb⟩
  obtain ⟨-, -, hfile⟩ := iff_file h o.handle _ hsz evs hfit.whole hfit.frames hw.session
  rw [iffStart] at hfile
  generalize hL : fieldBytes h .big .s4 ((file.length : Int) - 8) = L at hfile
  have hl4 : L.length = 4 := by rw [← hL, fieldBytes_length]
  refine identify_of (u := .iff) ?_ p
  refine At.form (a := tag "FORM") (l := L) (b := tag "8SVX") (by decide +kernel) hl4 ?_
  rw [hfile]
  exact (by repeat' (first | exact List.prefix_rfl | apply pre2))

/-- C39: … and a CAF file with packets (ALAC). -/
theorem C39_written_packets (F : Float64) (h : Endian) (t : Trk) (cookie D : List Byte) (tab : PacketTable) (p : Nat) :
    identify (Packets.packetFile F h t cookie D tab) p = .ok (some .caf, p) := by
  refine identify_of (u := .caf) ?_ p
  unfold Packets.packetFile cafHead
  exact At.pair (by decide +kernel) (by repeat' (first | exact List.prefix_append _ _ | apply pre2))

/-- C39: raw files are never identified as raw … -/
theorem C39_raw_unknown (file : List Byte) (p : Nat) : identify file p ≠ .ok (some .raw, p) := by
  obtain ⟨r, h1, h2⟩ := C39_identify file p
  rw [h1]
  intro h
  injection h with h
  injection h with h
  exact (h2 .raw).1 h

/-- … their samples may look like any format. -/
theorem C39_raw_mistaken (tr : TrackSetup) (h0 : tr.dataOffsetSet = false) (n : Nat) (p : Nat) :
    identify (session rawUpdate (rawInit tr) [.data (tag ".snd") n]) p = .ok (some .next, p) := by
  refine identify_of (u := .next) ?_ p
  have e : session rawUpdate (rawInit tr) [.data (tag ".snd") n] = tag ".snd" := by
    have h1 : rawFirst tr = 0 := by unfold rawFirst; rw [h0]; rfl
    unfold rawInit
    rw [h1]
    rfl
  rw [e]
  exact At.start (rest := []) (by rw [List.append_nil])

/-- A file of each kind: recognised, and not recognised because it is one byte short. -/
example : identify (tag "FORM" ++ [0, 0, 0, 4] ++ tag "AIFC") 7 = .ok (some .aiffc, 7) := by decide +kernel
example : identify (tag "FORM" ++ [0, 0, 0, 4] ++ tag "AIF") 7 = .ok (none, 7) := by decide +kernel
example : identify nistMagic 3 = .ok (some .nist, 3) := by decide +kernel
example : identify (nistMagic.take 15) 3 = .ok (none, 3) := by decide +kernel

end AF.Files
