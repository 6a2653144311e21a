{
 "claims": [
  {
   "property": "C01",
   "status": "proved",
   "theorems": [
    "AF.G711.C01_ulaw_decode_is_standard",
    "AF.G711.C01_ulaw_code_roundtrip",
    "AF.G711.C01_ulaw_code_range",
    "AF.G711.C01_ulaw_second_generation"
   ],
   "note": ""
  },
  {
   "property": "C02",
   "status": "proved",
   "theorems": [
    "AF.G711.C02_ulaw_error_bound",
    "AF.G711.C02_ulaw_sign",
    "AF.G711.C02_ulaw_monotone"
   ],
   "note": ""
  },
  {
   "property": "C03",
   "status": "proved",
   "theorems": [
    "AF.G711.C03_alaw_decode_is_standard",
    "AF.G711.C03_alaw_code_roundtrip",
    "AF.G711.C03_alaw_code_range",
    "AF.G711.C03_alaw_second_generation"
   ],
   "note": ""
  },
  {
   "property": "C04",
   "status": "proved",
   "theorems": [
    "AF.G711.C04_alaw_error_bound_fails",
    "AF.G711.C04_alaw_error_bound",
    "AF.G711.C04_alaw_failure_is_exactly",
    "AF.G711.C04_alaw_monotone"
   ],
   "note": "Exact: the failure set is proved to be exactly -1..-7 (C04_alaw_error_bound_fails is the negation of the unrestricted claim)."
  },
  {
   "property": "C05",
   "status": "proved",
   "theorems": [
    "AF.C05_field_bytes",
    "AF.C05_field_roundtrip",
    "AF.C05_two_fields",
    "AF.C05_read_then_write"
   ],
   "note": ""
  },
  {
   "property": "C06",
   "status": "proved",
   "theorems": [
    "AF.Convert.C06_swap_reverses_each_sample",
    "AF.Convert.C06_swap_twice",
    "AF.Convert.C06_file_order_irrelevant"
   ],
   "note": "Module level for all sample sizes; end to end for integer formats (C06_file_order_irrelevant)."
  },
  {
   "property": "C07",
   "status": "proved",
   "theorems": [
    "AF.Convert.C07_expand_extends",
    "AF.Convert.C07_compress_packs",
    "AF.Convert.C07_pack_unpack"
   ],
   "note": ""
  },
  {
   "property": "C08",
   "status": "proved",
   "theorems": [
    "AF.Convert.C08_convertInt",
    "AF.Convert.C08_widen_narrow",
    "AF.Convert.C08_range_monotone"
   ],
   "note": ""
  },
  {
   "property": "C09",
   "status": "proved",
   "theorems": [
    "AF.Convert.C09_to_signed",
    "AF.Convert.C09_to_unsigned",
    "AF.Convert.C09_inverse"
   ],
   "note": ""
  },
  {
   "property": "C10",
   "status": "proved",
   "theorems": [
    "AF.Convert.C10_saturates",
    "AF.Convert.C10_clips",
    "AF.Convert.C10_accuracy",
    "AF.Convert.C10_monotone",
    "AF.Convert.C10_negation_nan",
    "AF.Convert.C10_negation_unclipped_mapping",
    "AF.Convert.C10_integer_clip",
    "AF.Convert.C10_integer_clip_chain"
   ],
   "note": "Any monotone rounding that keeps clip values; NaN and minClip >= maxClip: negations proved."
  },
  {
   "property": "C11",
   "status": "proved",
   "theorems": [
    "AF.Convert.C11_mono_to_stereo",
    "AF.Convert.C11_to_four",
    "AF.Convert.C11_stereo_to_mono",
    "AF.Convert.C11_other_counts",
    "AF.Convert.C11_framewise",
    "AF.Convert.C11_user_matrix",
    "AF.Convert.C11_equal_counts",
    "AF.Convert.C11_from_four",
    "AF.Convert.C11_negation_four_channels"
   ],
   "note": "All channel counts and frames of integer samples; 4->1 and 4->2 when the sum fits, negation at full scale."
  },
  {
   "property": "C12",
   "status": "proved",
   "theorems": [
    "AF.Reading.C12_reading_refines_cursor",
    "AF.Reading.C12_read_partition_independent",
    "AF.Reading.C12_negation_truncated_pcm",
    "AF.Reading.C12_negation_truncated_block",
    "AF.Reading.C12_negation_truncated_block_asserts"
   ],
   "note": "For tracks whose data section contains the frames the header promises (hypothesis Intact), all codec kinds with byte-packet decoding (PCM, G.711, IMA/MS ADPCM), equal virtual and file rates. Truncated files: negations proved."
  },
  {
   "property": "C13",
   "status": "proved",
   "theorems": [
    "AF.Writing.C13_written_file",
    "AF.Writing.C13_write_partition_independent",
    "AF.Writing.C13_written_file_formats",
    "AF.Writing.C13_negation_uninitialised_padding"
   ],
   "note": "For unlimited disk space. Padding of an incomplete last packet is determined (previous packet) or uninitialised memory when fewer frames than one packet were written (negation proved)."
  },
  {
   "property": "C14",
   "status": "proved",
   "theorems": [
    "AF.Reading.C14_seek_then_read"
   ],
   "note": ""
  },
  {
   "property": "C15",
   "status": "proved",
   "theorems": [
    "AF.Reading.C15_tell_is_bookkeeping",
    "AF.Reading.C15_negation_unknown_length"
   ],
   "note": "For intact tracks of known length; for unknown length with a conversion the negation is proved."
  },
  {
   "property": "C16",
   "status": "proved",
   "theorems": [
    "AF.Reading.C16_seek_past_end",
    "AF.Reading.C16_negation_empty_pcm_reads_header",
    "AF.Reading.C16_negation_empty_block_aborts"
   ],
   "note": "Both halves proved."
  },
  {
   "property": "C17",
   "status": "proved",
   "theorems": [
    "AF.Writing.C17_sync_transparent_pcm",
    "AF.Writing.C17_sync_transparent_g711",
    "AF.Writing.C17_sync_transparent_small",
    "AF.Writing.C17_sync_transparent_block",
    "AF.Writing.C17_negation_pending_packet",
    "AF.Writing.C17_negation_sync_then_close",
    "AF.Writing.C17_negation_large_pcm",
    "AF.Writing.C17_negation_huge_pcm",
    "AF.Writing.C17_negation_assertions"
   ],
   "note": "Positive and negative halves proved; with assertions compiled in even PCM fails (C17_negation_assertions)."
  },
  {
   "property": "C18",
   "status": "proved",
   "theorems": [
    "AF.Convert.C18_integer_roundtrip",
    "AF.Convert.C18_float_roundtrip"
   ],
   "note": "Integer file formats of every width, sign, byte order and channel count with a virtual format no wider than the file's; float and double read and written as such. Same or different hosts."
  },
  {
   "property": "C19",
   "status": "proved",
   "theorems": [
    "AF.IMA.C19_decoder_tracks_encoder"
   ],
   "note": ""
  },
  {
   "property": "C20",
   "status": "proved",
   "theorems": [
    "AF.IMA.C20_error_bound",
    "AF.IMA.C20_never_diverges"
   ],
   "note": ""
  },
  {
   "property": "C21",
   "status": "proved",
   "theorems": [
    "AF.IMA.C21_wave_block",
    "AF.IMA.C21_wave_sizes",
    "AF.IMA.C21_qt_block",
    "AF.IMA.C21_qt_sizes",
    "AF.IMA.C21_negation_wave_drops_last_frame",
    "AF.IMA.C21_negation_wave_first_frame"
   ],
   "note": "Per-block encoder/decoder tracking for both layouts; negations proved: in a WAVE file the decoded frames are one frame late and the last frame of each block is dropped."
  },
  {
   "property": "C22",
   "status": "proved",
   "theorems": [
    "AF.IMA.C22_wave_safe_iff",
    "AF.IMA.C22_wave_result",
    "AF.IMA.C22_qt_safe_iff",
    "AF.IMA.C22_wave_geometry",
    "AF.IMA.C22_qt_geometry",
    "AF.IMA.C22_negation_step_index",
    "AF.IMA.C22_negation_block_too_short",
    "AF.IMA.C22_negation_samples_per_block",
    "AF.MSADPCM.C22_negation_msadpcm_predictor",
    "AF.MSADPCM.C22_negation_msadpcm_overflow",
    "AF.MSADPCM.C22_negation_msadpcm_channels",
    "AF.MSADPCM.C22_ms_mono_safe_iff",
    "AF.MSADPCM.C22_ms_stereo_safe_iff",
    "AF.MSADPCM.C22_negation_msadpcm_odd_frames"
   ],
   "note": "Exact conditions (iff) for both IMA layouts and for MS ADPCM with one or two channels; negations for everything unchecked."
  },
  {
   "property": "C23",
   "status": "proved",
   "theorems": [
    "AF.MSADPCM.C23_decoder_tracks_encoder",
    "AF.MSADPCM.C23_error_bound",
    "AF.MSADPCM.C23_mono_block",
    "AF.MSADPCM.C23_stereo_block",
    "AF.MSADPCM.C23_default_sizes"
   ],
   "note": "For 1-2 channels and coefficient pairs with |a|+|b| <= 768 (includes the seven standard pairs); larger coefficients from a hostile file overflow: negation proved."
  },
  {
   "property": "C24",
   "status": "proved",
   "theorems": [
    "AF.Props.C24_rate_roundtrip",
    "AF.Props.C24_rate_injective",
    "AF.Props.C24_non_finite"
   ],
   "note": ""
  },
  {
   "property": "C25",
   "status": "proved",
   "theorems": [
    "AF.Meta.C25_history_refines",
    "AF.Meta.C25_write_at",
    "AF.Meta.C25_contents_kept",
    "AF.Meta.C25_read_at",
    "AF.Meta.C25_position_in_chunk",
    "AF.Meta.C25_negative_seek_corrupts",
    "AF.Setup.C25_opened_handle_wf"
   ],
   "note": "Chunk sizes nonnegative; negative offsets: negation proved."
  },
  {
   "property": "C26",
   "status": "proved",
   "theorems": [
    "AF.Meta.C26_last_set_wins",
    "AF.Meta.C26_others_untouched",
    "AF.Meta.C26_refused",
    "AF.Meta.C26_unknown_is_zero"
   ],
   "note": "Setup-level 16-bit truncation of marker ids: see C30."
  },
  {
   "property": "C27",
   "status": "proved",
   "theorems": [
    "AF.Meta.C27_last_set_wins",
    "AF.Meta.C27_others_untouched",
    "AF.Meta.C27_refused",
    "AF.Meta.C27_frames_are_markers"
   ],
   "note": ""
  },
  {
   "property": "C28",
   "status": "proved",
   "theorems": [
    "AF.Meta.C28_last_legal_wins",
    "AF.Meta.C28_long_last_legal_wins",
    "AF.Meta.C28_others_untouched",
    "AF.Meta.C28_get_list"
   ],
   "note": "AIFF/AIFF-C and WAVE parameter tables."
  },
  {
   "property": "C29",
   "status": "proved",
   "theorems": [
    "AF.Pv.C29_last_set_wins",
    "AF.Pv.C29_out_of_range",
    "AF.Pv.C29_unknown_type_refused",
    "AF.Pv.C29_null",
    "AF.Pv.C29_size",
    "AF.Pv.C29_type_mismatch_not_refused"
   ],
   "note": "Types are not compared between set and get: C29_type_mismatch_not_refused."
  },
  {
   "property": "C30",
   "status": "proved",
   "theorems": [
    "AF.Setup.C30_instrument_list_accepted_iff",
    "AF.Setup.C30_loop_list_accepted_iff",
    "AF.Setup.C30_instruments_reported",
    "AF.Setup.C30_loops_reported",
    "AF.Setup.C30_markers_reported",
    "AF.Setup.C30_misc_reported",
    "AF.Setup.C30_repeated_ids_accepted",
    "AF.Setup.C30_large_marker_id_lost"
   ],
   "note": "Every history and format."
  },
  {
   "property": "C31",
   "status": "proved",
   "theorems": [
    "AF.Setup.C31_set_sample_format",
    "AF.Setup.C31_setup_always_legal",
    "AF.Setup.C31_opened_format_legal",
    "AF.Setup.C31_virtual_channels_unchecked"
   ],
   "note": "Negation proved for afSetVirtualChannels / afSetVirtualRate."
  },
  {
   "property": "C32",
   "status": "proved",
   "theorems": [
    "AF.Files.C32_next_roundtrip",
    "AF.Files.C32_empty_file"
   ],
   "note": "All accepted setups and histories; empty files: negation proved."
  },
  {
   "property": "C33",
   "status": "proved",
   "theorems": [
    "AF.Files.C33_avr_roundtrip",
    "AF.Files.C33_lost"
   ],
   "note": "C33_lost covers all other accepted setups."
  },
  {
   "property": "C34",
   "status": "proved",
   "theorems": [
    "AF.Files.C34_wave_roundtrip",
    "AF.Files.C34_wave_packets",
    "AF.Files.C34_odd_width_lost"
   ],
   "note": "Five compressions; packet sizes of ADPCM files: C34_wave_packets; widths other than whole bytes: C34_odd_width_lost."
  },
  {
   "property": "C35",
   "status": "proved",
   "theorems": [
    "AF.Files.C35_aiff_roundtrip",
    "AF.Files.C35_ima_roundtrip",
    "AF.Files.C35_ima_frames_lost"
   ],
   "note": "IMA: the frames of an incomplete last packet are lost (C35_ima_frames_lost)."
  },
  {
   "property": "C36",
   "status": "proved",
   "theorems": [
    "AF.Files.C36_voc_roundtrip",
    "AF.Files.C36_large_lost"
   ],
   "note": "C36_large_lost proves the failure above."
  },
  {
   "property": "C37",
   "status": "proved",
   "theorems": [
    "AF.ALAC.C37_alac_description",
    "AF.Files.C37_caf_roundtrip",
    "AF.Files.C37_caf_ima",
    "AF.Files.C37_ber_roundtrip",
    "AF.Files.C37_ber_digits",
    "AF.Files.C37_table_roundtrip",
    "AF.Files.C37_empty_packet"
   ],
   "note": "PCM, G.711, IMA and ALAC descriptions, BER integers and packet tables."
  },
  {
   "property": "C38",
   "status": "proved",
   "theorems": [
    "AF.Files.C38_aiff_endless",
    "AF.Files.C38_caf_endless",
    "AF.Files.C38_aiff_terminates",
    "AF.Files.C38_iff_terminates",
    "AF.Files.C38_wave_terminates",
    "AF.Files.C38_wave_streaming",
    "AF.Files.C38_caf_terminates",
    "AF.Files.C38_iff_endless",
    "AF.Files.C38_voc_terminates",
    "AF.Files.C38_wave_endless"
   ],
   "note": "Exact: terminates under stated conditions on the chunk lengths for every file; endless files exhibited outside them. The readers of NeXT, IRCAM, AVR, SampleVision, NIST and raw files have no loop over the file's contents and are total functions in the model."
  },
  {
   "property": "C39",
   "status": "proved",
   "theorems": [
    "AF.Files.C39_signatures_exclusive",
    "AF.Files.C39_identify",
    "AF.Files.C39_written_simple",
    "AF.Files.C39_written_wave",
    "AF.Files.C39_written_aiff",
    "AF.Files.C39_written_iff",
    "AF.Files.C39_written_packets",
    "AF.Files.C39_raw_unknown",
    "AF.Files.C39_raw_mistaken"
   ],
   "note": ""
  },
  {
   "property": "C40",
   "status": "proved",
   "theorems": [
    "AF.Files.C40_aiff_even",
    "AF.Files.C40_iff_even",
    "AF.Files.C40_wave_even"
   ],
   "note": "WAVE, AIFF, IFF."
  },
  {
   "property": "C41",
   "status": "proved",
   "theorems": [
    "AF.Files.C41_aiff_markers",
    "AF.Files.C41_aiff_comments_lost",
    "AF.Files.C41_wave_markers",
    "AF.Files.C41_wave_ids_wrap"
   ],
   "note": "C41_wave_ids_wrap, C41_aiff_comments_lost are the failures."
  },
  {
   "property": "C42",
   "status": "proved",
   "theorems": [
    "AF.Access.C42_write_refused",
    "AF.Access.C42_read_refused",
    "AF.Access.C42_writes_invisible",
    "AF.Access.C42_reads_invisible",
    "AF.Access.C42_sync_read_only"
   ],
   "note": "All metadata calls, afReadFrames, afWriteFrames, afSeekFrame/afTellFrame, afSyncFile."
  },
  {
   "property": "C43",
   "status": "proved",
   "theorems": [
    "AF.Heap.C43_handle_is_independent_of_its_setup",
    "AF.Heap.C43_handle_in_memory",
    "AF.Heap.C43_setup_is_independent_of_its_handles",
    "AF.Setup.C43_open_changes_only_the_format"
   ],
   "note": "Heap-level: histories on setups and handles opened for writing. FLAC setups are refused by the model."
  },
  {
   "property": "C44",
   "status": "proved",
   "theorems": [
    "AF.ALAC.C44_mixing_lossless",
    "AF.ALAC.C44_samples",
    "AF.ALAC.C44_wide_lost",
    "AF.ALAC.C44_twenty_bits"
   ],
   "note": ""
  },
  {
   "property": "C45",
   "status": "proved",
   "theorems": [
    "AF.ALAC.C45_prediction_lossless",
    "AF.ALAC.C45_residuals"
   ],
   "note": ""
  },
  {
   "property": "C46",
   "status": "proved",
   "theorems": [
    "AF.ALAC.C46_entropy_lossless",
    "AF.ALAC.C46_wide_lost"
   ],
   "note": ""
  },
  {
   "property": "C47",
   "status": "proved",
   "theorems": [
    "AF.Files.C47_prefix_sums",
    "AF.Files.C47_outside"
   ],
   "note": ""
  },
  {
   "property": "C48",
   "status": "proved",
   "theorems": [
    "AF.Convert.C48_reading_chain",
    "AF.Convert.C48_writing_chain",
    "AF.Convert.C48_chain_format",
    "AF.Convert.C48_identity_chain",
    "AF.Convert.C48_negation_24bit_swapped",
    "AF.Convert.C48_negation_24bit_swapped_writing"
   ],
   "note": "Float arithmetic is C10, channel mixing C11; 24-bit swapped: negations proved."
  },
  {
   "property": "C49",
   "status": "proved",
   "theorems": [
    "AF.Files.C49_ircam_roundtrip",
    "AF.Files.C49_foreign_order_lost"
   ],
   "note": "The conversion to float is a parameter."
  },
  {
   "property": "C50",
   "status": "proved",
   "theorems": [
    "AF.Files.C50_aiff_misc",
    "AF.Files.C50_iff_misc",
    "AF.Files.C50_wave_misc"
   ],
   "note": "Exact list of what is read back."
  },
  {
   "property": "C51",
   "status": "proved",
   "theorems": [
    "AF.Files.C51_aiff_none",
    "AF.Files.C51_caf_none",
    "AF.Files.C51_caf_data_first",
    "AF.Files.C51_next_defined",
    "AF.Files.C51_next_short",
    "AF.Files.C51_avr_defined",
    "AF.Files.C51_avr_short",
    "AF.Files.C51_ircam_defined",
    "AF.Files.C51_ircam_short",
    "AF.Files.C51_voc_none",
    "AF.Files.C51_iff_none",
    "AF.Files.C51_wave_overrun",
    "AF.Files.C51_wave_short",
    "AF.Files.C51_aiff_defined",
    "AF.Files.C51_iff_defined",
    "AF.Files.C51_wave_defined",
    "AF.Files.C51_caf_defined",
    "AF.Files.C51_voc_defined",
    "AF.Files.C51_smp_defined",
    "AF.Files.C51_smp_short",
    "AF.Files.C51_nist_defined"
   ],
   "note": "Positive theorems per format (C51_*_defined) under conditions stated on the bytes alone (Spec/Whole.lean), for every content otherwise; negations for files without them (C51_*_short, C51_*_none, C51_wave_overrun, C51_caf_data_first). FLAC is not modelled."
  },
  {
   "property": "C52",
   "status": "proved",
   "theorems": [
    "AF.Files.C52_aiff_aes",
    "AF.Files.C52_aiff_instrument",
    "AF.Files.C52_aiff_lost"
   ],
   "note": "Gain and loop markers must fit 16 bits; C52_aiff_lost is the failure."
  },
  {
   "property": "C53",
   "status": "proved",
   "theorems": [
    "AF.Setup.C53_virtual_is_setup",
    "AF.Setup.C53_virtual_iff",
    "AF.Setup.C53_iff_silence"
   ],
   "note": "Every history of setup calls and both host orders."
  },
  {
   "property": "C54",
   "status": "proved",
   "theorems": [
    "AF.Files.C54_iff_roundtrip",
    "AF.Files.C54_rate_kept",
    "AF.Files.C54_rate_96000"
   ],
   "note": "Exact for every rate."
  },
  {
   "property": "C55",
   "status": "proved",
   "theorems": [
    "AF.ALAC.C55_packet_lossless"
   ],
   "note": ""
  },
  {
   "property": "C56",
   "status": "proved",
   "theorems": [
    "AF.ALAC.C56_packet_fits"
   ],
   "note": "The finished packet; the room taken by a compressed attempt that is abandoned for an escape packet is not bounded."
  },
  {
   "property": "C57",
   "status": "proved",
   "theorems": [
    "AF.ALAC.C57_damaged_packet",
    "AF.ALAC.C57_within_buffers",
    "AF.ALAC.C57_reads_behind_packet"
   ],
   "note": "C57_within_buffers (every packet), with C57_damaged_packet (a frame count beyond the buffers, for every configuration) and C57_reads_behind_packet (a truncated packet whose samples depend on memory behind it)."
  },
  {
   "property": "C58",
   "status": "proved",
   "theorems": [
    "AF.ALAC.C58_alac_roundtrip",
    "AF.ALAC.C58_sync_lost"
   ],
   "note": "Without afSyncFile; C58_sync_lost proves that afSyncFile destroys the file. The encoder search is a parameter (any admissible choice)."
  },
  {
   "property": "C59",
   "status": "proved",
   "theorems": [
    "AF.Packets.C59_reading_safe",
    "AF.Packets.C59_no_table",
    "AF.Packets.C59_large_packet",
    "AF.Packets.C59_seek_outside",
    "AF.Packets.C59_seek_empty"
   ],
   "note": "For sound files; the failures outside are proved (C59_no_table, C59_large_packet, C59_seek_outside, C59_seek_empty)."
  },
  {
   "property": "C60",
   "status": "proved",
   "theorems": [
    "AF.Files.C60_samplevision_roundtrip",
    "AF.Files.C60_channels_lost",
    "AF.Files.C60_phantom_items",
    "AF.Files.C60_sync_grows"
   ],
   "note": ""
  },
  {
   "property": "C61",
   "status": "proved",
   "theorems": [
    "AF.Files.C61_nist_roundtrip",
    "AF.Files.C61_narrow_pcm_read_as_ulaw",
    "AF.Files.C61_narrow_g711_undefined",
    "AF.Files.C61_small_rate_lost",
    "AF.Files.C61_count_wraps",
    "AF.Files.C61_missing_number_undefined"
   ],
   "note": ""
  },
  {
   "property": "C62",
   "status": "proved",
   "theorems": [
    "AF.Files.C62_check",
    "AF.Files.C62_opened",
    "AF.Files.C62_channels",
    "AF.Files.C62_negative_channels"
   ],
   "note": ""
  },
  {
   "property": "C63",
   "status": "proved",
   "theorems": [
    "AF.Files.C63_raw_roundtrip",
    "AF.Files.C63_frame_count",
    "AF.Files.C63_empty_with_offset",
    "AF.Files.C63_divides_by_zero",
    "AF.Files.C63_block_codecs"
   ],
   "note": ""
  },
  {
   "property": "C64",
   "status": "proved",
   "theorems": [
    "AF.Heap.C64_memory_is_used_properly",
    "AF.Heap.C64_nothing_leaks"
   ],
   "note": "Setups and handles opened for writing. Not followed: File, modules, packet tables, items of compression parameter lists; handles opened for reading."
  },
  {
   "property": "C65",
   "status": "proved",
   "theorems": [
    "AF.Buffers.C65_reading",
    "AF.Buffers.C65_writing",
    "AF.Buffers.C65_as_opened",
    "AF.Buffers.C65_long_packets",
    "AF.Buffers.C65_opened",
    "AF.Buffers.C65_wide_blocks",
    "AF.Buffers.C65_empty_blocks",
    "AF.Buffers.C65_many_channels"
   ],
   "note": "Under the conditions of Spec/Buffers.lean; the overflows outside them are proved (C65_long_packets, C65_wide_blocks, C65_empty_blocks, C65_many_channels)."
  },
  {
   "property": "C66",
   "status": "proved",
   "theorems": [
    "AF.Files.C66_next",
    "AF.Files.C66_avr",
    "AF.Files.C66_nist",
    "AF.Files.C66_ircam",
    "AF.Files.C66_wave",
    "AF.Files.C66_aiff",
    "AF.Files.C66_iff",
    "AF.Files.C66_wave_unsynced",
    "AF.Files.C66_aiff_unsynced",
    "AF.Files.C66_iff_unsynced",
    "AF.Files.C66_voc_lost",
    "AF.Files.C66_caf_lost",
    "AF.Files.C66_smp_lost"
   ],
   "note": "Dying between the writes of a single afSyncFile, and power loss (writes the system accepted but did not store), are not modelled. The failures for VOC, CAF, Sample Vision and unsynced files are proved."
  },
  {
   "property": "C67",
   "status": "proved",
   "theorems": [
    "AF.Program.C67_next",
    "AF.Program.C67_avr",
    "AF.Program.C67_ircam",
    "AF.Program.C67_samplevision",
    "AF.Program.C67_voc",
    "AF.Program.C67_nist",
    "AF.Program.C67_caf",
    "AF.Program.C67_wave",
    "AF.Program.C67_aiff",
    "AF.Program.C67_iff",
    "AF.Program.C67_exact",
    "AF.Program.C67_modules"
   ],
   "note": ""
  },
  {
   "property": "C68",
   "status": "proved",
   "theorems": [
    "AF.Faults.C68_success",
    "AF.Faults.C68_first_failure",
    "AF.Faults.C68_room",
    "AF.Faults.C68_room_results",
    "AF.Faults.C68_packets",
    "AF.Faults.C68_negation_lost_silently",
    "AF.Faults.C68_negation_retry"
   ],
   "note": "ALAC tracks and errors of update() and of seeking are not modelled here. The silent loss of the last packet and the trouble with retries are proved as negations."
  },
  {
   "property": "C69",
   "status": "proved",
   "theorems": [
    "AF.ShortReads.C69_conversation",
    "AF.ShortReads.C69_until_short",
    "AF.ShortReads.C69_recovers",
    "AF.ShortReads.C69_present",
    "AF.ShortReads.C69_negation_misplaced",
    "AF.ShortReads.C69_negation_phantom_frames",
    "AF.ShortReads.C69_negation_shifted"
   ],
   "note": "For tracks of known length on seekable files; ALAC and the reads that parse the header are not modelled here."
  },
  {
   "property": "C70",
   "status": "proved",
   "theorems": [
    "AF.FLAC.C70_cursor",
    "AF.FLAC.C70_blocks",
    "AF.FLAC.C70_opens",
    "AF.FLAC.C70_negation_truncated",
    "AF.FLAC.C70_negation_seek_end",
    "AF.FLAC.C70_negation_more_channels",
    "AF.FLAC.C70_negation_unknown_length"
   ],
   "note": ""
  },
  {
   "property": "C71",
   "status": "proved",
   "theorems": [
    "AF.FLAC.C71_written",
    "AF.FLAC.C71_round_trip",
    "AF.FLAC.C71_negation_write_after_sync",
    "AF.FLAC.C71_negation_refused",
    "AF.FLAC.C71_negation_disk_full",
    "AF.FLAC.C71_accepts"
   ],
   "note": ""
  },
  {
   "property": "C72",
   "status": "proved",
   "theorems": [
    "AF.Query.C72_defined",
    "AF.Query.C72_negation_marker",
    "AF.Query.C72_numbers",
    "AF.Query.C72_minus_one",
    "AF.Query.C72_lists",
    "AF.Query.C72_formats",
    "AF.Query.C72_implemented",
    "AF.Query.C72_negation_flac",
    "AF.Query.C72_compression_listed",
    "AF.Query.C72_compression_complete",
    "AF.Query.C72_negation_nist",
    "AF.Query.C72_negation_raw",
    "AF.Query.C72_compression_implemented",
    "AF.Query.C72_defaults",
    "AF.Query.C72_native",
    "AF.Query.C72_metadata",
    "AF.Query.C72_negation_markers",
    "AF.Query.C72_params",
    "AF.Query.C72_negation_default_metadata"
   ],
   "note": ""
  },
  {
   "property": "C73",
   "status": "proved",
   "theorems": [
    "AF.Create.C73_create",
    "AF.Create.C73_as_asked",
    "AF.Create.C73_usable",
    "AF.Create.C73_defined",
    "AF.Create.C73_negation_raw_blocks"
   ],
   "note": ""
  },
  {
   "property": "C74",
   "status": "proved",
   "theorems": [
    "AF.Create.C74_again",
    "AF.Create.C74_batch",
    "AF.Create.C74_negation_byte_order",
    "AF.Create.C74_negation_ulaw_after",
    "AF.Create.C74_negation_iff_then_next",
    "AF.Create.C74_negation_flac_then_aiff"
   ],
   "note": ""
  },
  {
   "property": "C75",
   "status": "proved",
   "theorems": [
    "AF.Files.C75_next_all",
    "AF.Files.C75_avr_all",
    "AF.Files.C75_nist_all",
    "AF.Files.C75_next",
    "AF.Files.C75_avr",
    "AF.Files.C75_nist",
    "AF.Files.C75_wave",
    "AF.Files.C75_wave_all",
    "AF.Files.C75_iff",
    "AF.Files.C75_iff_all",
    "AF.Files.C75_negation_aiff"
   ],
   "note": ""
  },
  {
   "property": "C76",
   "status": "proved",
   "theorems": [
    "AF.SfConvert.C76_mistakes",
    "AF.SfConvert.C76_keywords",
    "AF.SfConvert.C76_success",
    "AF.SfConvert.C76_converts",
    "AF.SfConvert.C76_next",
    "AF.SfConvert.C76_avr",
    "AF.SfConvert.C76_samplevision",
    "AF.SfConvert.C76_voc",
    "AF.SfConvert.C76_nist",
    "AF.SfConvert.C76_caf",
    "AF.SfConvert.C76_ircam",
    "AF.SfConvert.C76_wave",
    "AF.SfConvert.C76_aiff",
    "AF.SfConvert.C76_iff",
    "AF.SfConvert.C76_lossless",
    "AF.SfConvert.C76_no_input",
    "AF.SfConvert.C76_negation_emptied",
    "AF.SfConvert.C76_negation_byteorder",
    "AF.SfConvert.C76_incomplete",
    "AF.SfConvert.C76_negation_negative"
   ],
   "note": ""
  },
  {
   "property": "C77",
   "status": "partial",
   "theorems": [
    "AF.Foreign.C77_next",
    "AF.Foreign.C77_avr",
    "AF.Foreign.C77_ircam",
    "AF.Foreign.C77_voc_partial",
    "AF.Foreign.C77_wave",
    "AF.Foreign.C77_wave_fact_refuted",
    "AF.Foreign.C77_voc_after_refuted",
    "AF.Foreign.C77_ircam_short_refuted",
    "AF.Foreign.C77_caf",
    "AF.Foreign.C77_caf_wide_refuted",
    "AF.Foreign.C77_aiff",
    "AF.Foreign.C77_iff",
    "AF.Foreign.C77_iff_compressed_refuted",
    "AF.Foreign.C77_nist",
    "AF.Foreign.C77_smp",
    "AF.Foreign.C77_nist_pcm8_refuted",
    "AF.Foreign.C77_nist_no_order_refuted"
   ],
   "note": "all formats but FLAC and ALAC: WAVE, NeXT, AVR, IRCAM, AIFF, AIFF-C, 8SVX, CAF, NIST, SampleVision, VOC (sound of type 1 only if nothing follows it: refuted otherwise, as the statement says); ADPCM files of other programs are in C80"
  },
  {
   "property": "C78",
   "status": "proved",
   "theorems": [
    "AF.Adpcm.C78_wave_ima",
    "AF.Adpcm.C78_wave_ms",
    "AF.Adpcm.C78_aiffc_ima",
    "AF.Adpcm.C78_caf_ima",
    "AF.Adpcm.C78_complete_blocks",
    "AF.Adpcm.C78_wave_ima_frames_lost"
   ],
   "note": ""
  },
  {
   "property": "C79",
   "status": "proved",
   "theorems": [
    "AF.IMA.C79_ima_wave_decoder",
    "AF.IMA.C79_ima_qt_decoder",
    "AF.MSADPCM.C79_ms_mono_decoder",
    "AF.MSADPCM.C79_ms_stereo_decoder",
    "AF.MSADPCM.C79_ms_decodes"
   ],
   "note": ""
  },
  {
   "property": "C80",
   "status": "proved",
   "theorems": [
    "AF.Foreign.C80_wave_ima",
    "AF.Foreign.C80_wave_ms",
    "AF.Foreign.C80_aiffc_ima",
    "AF.Foreign.C80_caf_ima"
   ],
   "note": ""
  },
  {
   "property": "C81",
   "status": "proved",
   "theorems": [
    "AF.Descriptors.C81_ledger",
    "AF.Descriptors.C81_no_fault",
    "AF.Descriptors.C81_no_leak",
    "AF.Descriptors.C81_identify",
    "AF.Descriptors.C81_virtual_same",
    "AF.Descriptors.C81_failed_fd_refuted",
    "AF.Descriptors.C81_failed_open_refuted",
    "AF.Descriptors.C81_failed_open_happens"
   ],
   "note": ""
  },
  {
   "property": "C82",
   "status": "proved",
   "theorems": [
    "AF.Files.C82_opened",
    "AF.Files.C82_measured",
    "AF.Files.C82_ircam_refuted",
    "AF.Files.C82_voc_refuted",
    "AF.Files.C82_nist_refuted",
    "AF.Files.C82_caf_refuted",
    "AF.Files.C82_aiff_refuted",
    "AF.Reading.C82_negative_read",
    "AF.Reading.C82_negative_seek"
   ],
   "note": ""
  },
  {
   "property": "C83",
   "status": "proved",
   "theorems": [
    "AF.SfInfo.C83_report",
    "AF.SfInfo.C83_told_apart",
    "AF.SfInfo.C83_short",
    "AF.SfInfo.C83_files",
    "AF.SfInfo.C83_ends",
    "AF.SfInfo.C83_status_refuted",
    "AF.SfInfo.C83_options",
    "AF.SfInfo.C83_copyright",
    "AF.SfInfo.C83_copyright_refuted"
   ],
   "note": ""
  },
  {
   "property": "C84",
   "status": "proved",
   "theorems": [
    "AF.Reading.Rate.C84_usual_rate",
    "AF.Reading.Rate.C84_usual_rate_ieee",
    "AF.Reading.Rate.C84_whole_rates",
    "AF.Reading.Rate.C84_count",
    "AF.Reading.Rate.C84_negative_rate",
    "AF.Reading.Rate.C84_half_refuted",
    "AF.Reading.Rate.C84_double_refuted",
    "AF.Reading.Rate.C84_seek_refuted",
    "AF.Reading.Rate.C84_zero_accepted_refuted",
    "AF.Reading.Rate.C84_meaningless_refuted",
    "AF.Reading.Rate.C84_meaningless_silent",
    "AF.Reading.Rate.C84_meaningless_opens"
   ],
   "note": ""
  },
  {
   "property": "C85",
   "status": "proved",
   "theorems": [
    "AF.Writing.Rate.C85_file_rates",
    "AF.Writing.Rate.C85_count_rates_refuted",
    "AF.Writing.Rate.C85_count",
    "AF.Writing.Rate.C85_count_ieee",
    "AF.Writing.Rate.C85_count_refuted",
    "AF.Writing.Rate.C85_file"
   ],
   "note": ""
  },
  {
   "property": "C86",
   "status": "proved",
   "theorems": [
    "AF.ErrorReport.C86_set",
    "AF.ErrorReport.C86_error",
    "AF.ErrorReport.C86_open",
    "AF.ErrorReport.C86_apple",
    "AF.ErrorReport.C86_apple_refuted"
   ],
   "note": "Full for the directives %s, %d, %zd, %jd; the negation C86_apple_refuted is for files that end within the name of the compression (AIFF.cpp:363 ignores the result of readPString)."
  }
 ]
}