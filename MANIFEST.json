{
 "claims": [
  {
   "property": "C01",
   "status": "proved",
   "theorems": [
    "Verif.Ax25.C01_table_crc_is_bitserial_crc",
    "Verif.Ax25.C01_check_is_good_residue"
   ],
   "note": "All 256 table entries checked in the kernel and lifted to every register and byte string."
  },
  {
   "property": "C02",
   "status": "proved",
   "theorems": [
    "Verif.Ax25.C02_accepted_iff_fcs",
    "Verif.Ax25.C02_append_fcs_accepted"
   ],
   "note": "Acceptance iff the last two bytes are the complemented CRC, low byte first."
  },
  {
   "property": "C03",
   "status": "proved",
   "theorems": [
    "Verif.Ax25.C03_burst_detected",
    "Verif.Ax25.C03_odd_detected",
    "Verif.Ax25.C03_double_detected",
    "Verif.Ax25.C03_double_bound_sharp"
   ],
   "note": "Bursts up to 16 bits, odd weight, and double errors closer than 32767 bits; bound shown sharp."
  },
  {
   "property": "C04",
   "status": "proved",
   "theorems": [
    "Verif.Ax25.C04_decode_encode"
   ],
   "note": "From any decoder state."
  },
  {
   "property": "C05",
   "status": "proved",
   "theorems": [
    "Verif.Ax25.C05_frames_in_order",
    "Verif.Ax25.C05_frames_processed"
   ],
   "note": "From any decoder state, any list of frames."
  },
  {
   "property": "C06",
   "status": "proved",
   "theorems": [
    "Verif.Ax25.C06_processed_iff",
    "Verif.Ax25.C06_one_never_ends_frame",
    "Verif.Ax25.C06_frame_sound"
   ],
   "note": "Exact characterisation (iff) of the histories that make the decoder process a byte string; soundness of returned frames. The zero implied by the initial register counts as first bit of the opening flag."
  },
  {
   "property": "C07",
   "status": "proved",
   "theorems": [
    "Verif.Ax25.C07_feed_never_panics",
    "Verif.Ax25.C07_no_panic_and_bounded"
   ],
   "note": "All integers as arguments of Feed; panics are explicit in the model."
  },
  {
   "property": "C08",
   "status": "proved",
   "theorems": [
    "Verif.Ax25.C08_abort_discards"
   ],
   "note": "From any decoder state."
  },
  {
   "property": "C09",
   "status": "proved",
   "theorems": [
    "Verif.Ax25.C09_oversize_dropped"
   ],
   "note": "From any state; the following frames are decoded normally."
  },
  {
   "property": "C10",
   "status": "proved",
   "theorems": [
    "Verif.Ax25.C10_frame_roundtrip"
   ],
   "note": "End to end from bits to returned frame, from any state."
  },
  {
   "property": "C11",
   "status": "proved",
   "theorems": [
    "Verif.Ax25.C11_every_octet_unique",
    "Verif.Ax25.C11_control_fields"
   ],
   "note": "Every octet is the encoding of exactly one control field; fields decoded accordingly in every frame."
  },
  {
   "property": "C12",
   "status": "partial",
   "theorems": [
    "Verif.Ax25.C12_same_frames",
    "Verif.Ax25.C12_info_is_view",
    "Verif.Ax25.C12_info_stable_partial",
    "Verif.Ax25.C12_violated"
   ],
   "note": "Violated: Info aliases the receive buffer (witness). Proved: refinement of the list model for every state and for a new decoder (C12_same_frames), and stability for the next 8*(off+1)-1 calls."
  },
  {
   "property": "C13",
   "status": "partial",
   "theorems": [
    "Verif.Ax25.C13_flexnet_callsign_iff_partial",
    "Verif.Ax25.C13_violated"
   ],
   "note": "Violated (wrong mask, operator precedence). Exact set of call signs decoded correctly is proved (iff) and a witness given."
  },
  {
   "property": "C14",
   "status": "proved",
   "theorems": [
    "Verif.Conv.C14_ui8toi16",
    "Verif.Conv.C14_ui8toi16b",
    "Verif.Conv.C14_monotone_full_scale"
   ],
   "note": "Portable Ui8toi16/Ui8toi16b, all lengths; output strictly monotone, 0 and 255 map to the 16-bit extremes."
  },
  {
   "property": "C15",
   "status": "proved",
   "theorems": [
    "Verif.Conv.C15_roundtrip"
   ],
   "note": "Law-free float operations; any length and any slice offsets."
  },
  {
   "property": "C16",
   "status": "proved",
   "theorems": [
    "Verif.Conv.C16_i16_f32_roundtrip",
    "Verif.Conv.C16_i16_f32_i16"
   ],
   "note": "IEEE binary32/64 model (Verif.Fp); scale 2^k for -112<=k<=127, every 16-bit sample."
  },
  {
   "property": "C17",
   "status": "proved",
   "theorems": [
    "Verif.Conv.C17_ieee",
    "Verif.Conv.C17_pattern",
    "Verif.Conv.C17_bits_roundtrip"
   ],
   "note": "Bytes written are the little-endian bit pattern, so decoding them gives the pattern back."
  },
  {
   "property": "C18",
   "status": "proved",
   "theorems": [
    "Verif.Conv.C18_i8_c64_roundtrip",
    "Verif.Conv.C18_i8tof32_exact"
   ],
   "note": "IEEE binary32 model; every 8-bit value."
  },
  {
   "property": "C19",
   "status": "partial",
   "theorems": [
    "Verif.Conv.C19_ui8tof32_partial",
    "Verif.Conv.C19_violated_ui8tof32",
    "Verif.Conv.C19_i8tof32",
    "Verif.Conv.C19_ui8toc64",
    "Verif.Conv.C19_i8toc64",
    "Verif.Conv.C19_c64toi8",
    "Verif.Conv.C19_f32toi16",
    "Verif.Conv.C19_f32toi16ble",
    "Verif.Conv.C19_i16ToBLE",
    "Verif.Conv.C19_i16bleToF64",
    "Verif.Conv.C19_i16bleToF32",
    "Verif.Conv.C19_i32bleToF32",
    "Verif.Conv.C19_f32Tof32ble",
    "Verif.Conv.C19_vMulC64xF32",
    "Verif.Conv.C19_vMulC64",
    "Verif.Conv.C19_vAddF32",
    "Verif.Conv.C19_vAddC64",
    "Verif.Conv.C19_vscaleF32",
    "Verif.Conv.C19_vAbsC64_partial",
    "Verif.Conv.C19_violated_vAbsC64",
    "Verif.Conv.C19_vScaleC64_partial",
    "Verif.Conv.C19_violated_vScaleC64"
   ],
   "note": "Every portable conversion and vector routine: exact result on the common prefix, rest of memory unchanged, no panic. Violated for ui8tof32 and vAbsC64 (panic when output is shorter) and vScaleC64 (panic when empty or above 2^25 elements)."
  },
  {
   "property": "C20",
   "status": "partial",
   "theorems": [
    "Verif.Asm.C20_ok_iff_partial",
    "Verif.Asm.C20_violated",
    "Verif.Asm.C20_safe_cases_partial",
    "Verif.Asm.C20_violated_ui8toc64"
   ],
   "note": "Violated: the amd64 routine reads and writes past the slices for small lengths at unaligned addresses. Exact characterisation (iff) of the correct cases is proved."
  },
  {
   "property": "C21",
   "status": "partial",
   "theorems": [
    "Verif.Asm.C21_ok_iff_partial",
    "Verif.Asm.C21_violated",
    "Verif.Asm.C21_safe_cases_partial"
   ],
   "note": "Violated in the same way as C20 for I8tof32. Exact characterisation (iff) proved."
  },
  {
   "property": "C22",
   "status": "proved",
   "theorems": [
    "Verif.Asm.C22_ui8toi16",
    "Verif.Asm.C22_ui8toi16b"
   ],
   "note": "Every length, every alignment; access ends included."
  },
  {
   "property": "C23",
   "status": "proved",
   "theorems": [
    "Verif.Asm.C23_i16bleToF64",
    "Verif.Asm.C23_i16bleToF32",
    "Verif.Asm.C23_agrees_portable"
   ],
   "note": "Every length, with and without SSE4.1; access ends included; equality with the portable models."
  },
  {
   "property": "C24",
   "status": "partial",
   "theorems": [
    "Verif.Asm.C24_in_range_partial",
    "Verif.Asm.C24_violated",
    "Verif.Asm.C24_violated_witness"
   ],
   "note": "Violated: elements in the vector part saturate, elements in the tail wrap around (witness 40000). Partial: position independent when the conversion fits 16 bits; exact result proved for all values."
  },
  {
   "property": "C25",
   "status": "partial",
   "theorems": [
    "Verif.Asm.C25_exact_partial",
    "Verif.Asm.C25_violated"
   ],
   "note": "Violated: with AVX2 (SSE2) the tail loop scales only one element. Exact number of scaled elements proved, with iff for completeness."
  },
  {
   "property": "C26",
   "status": "partial",
   "theorems": [
    "Verif.Asm.C26_max_nan",
    "Verif.Asm.C26_min_nan",
    "Verif.Asm.C26_lost_iff",
    "Verif.Asm.C26_max_partial",
    "Verif.Asm.C26_min_partial",
    "Verif.Asm.C26_no_features",
    "Verif.Asm.C26_violated"
   ],
   "note": "Violated by a NaN in the vector part (witnesses for max and min). Partial: NaN-free vector part, any tail; flags off: identical to the portable code for all inputs. With NaNs anywhere the result is characterised exactly (C26_max_nan, C26_min_nan, C26_lost_iff): which elements count, and when it is NaN."
  },
  {
   "property": "C27",
   "status": "partial",
   "theorems": [
    "Verif.Asm.C27_max_partial",
    "Verif.Asm.C27_min_partial",
    "Verif.Asm.C27_violated"
   ],
   "note": "Partial: a slice of only NaNs gives the initial value, and the sign of a zero result depends on the order (witnesses); everything else holds for all slices and permutations."
  },
  {
   "property": "C28",
   "status": "partial",
   "theorems": [
    "Verif.Conv.C28_in_place_partial",
    "Verif.Conv.C28_square_in_place",
    "Verif.Conv.C28_violated_ui8toi16b",
    "Verif.Conv.C28_overlap_sharp"
   ],
   "note": "In-place use proved for the routines whose write position does not overtake the read position; violated for Ui8toi16b overlapping its input; the overlap condition is shown sharp."
  },
  {
   "property": "C29",
   "status": "partial",
   "theorems": [
    "Verif.Angle.C29_range_partial",
    "Verif.Angle.C29_violated"
   ],
   "note": "Violated at y = x = minInt (division by a wrapped zero). Exact panic condition (iff) and range for all other pairs of 64-bit integers."
  },
  {
   "property": "C30",
   "status": "proved",
   "theorems": [
    "Verif.Angle.C30_odd"
   ],
   "note": "All pairs of 64-bit integers on which neither call panics and -y exists."
  },
  {
   "property": "C31",
   "status": "proved",
   "theorems": [
    "Verif.Angle.C31_error",
    "Verif.Angle.C31_bound_sharp"
   ],
   "note": "|x|+|y| < 2^51; the bound is shown sharp (C31_bound_sharp)."
  },
  {
   "property": "C32",
   "status": "partial",
   "theorems": [
    "Verif.Angle.C32_range_partial",
    "Verif.Angle.C32_violated",
    "Verif.Angle.C32_error"
   ],
   "note": "Violated: panics at y = 2^55, x = 1. Exact panic condition (iff), range for all 64-bit pairs, and the 0.005 error bound below 2^54, for every table accurate to 1.001 units."
  },
  {
   "property": "C33",
   "status": "partial",
   "theorems": [
    "Verif.Angle.C33_error_partial",
    "Verif.Angle.C33_error_away_partial",
    "Verif.Angle.C33_violated",
    "Verif.Angle.C33_violated_small"
   ],
   "note": "Violated: error above 0.01 at (83, 10), and above 1 rad at (1e-21, 0). Partial: 0.01016 + 1e-20/max(|x|,|y|) at every point but the origin."
  },
  {
   "property": "C34",
   "status": "proved",
   "theorems": [
    "Verif.Angle.C34_error"
   ],
   "note": "Exact real arithmetic, every point of the plane, including the origin."
  },
  {
   "property": "C35",
   "status": "partial",
   "theorems": [
    "Verif.Angle.C35_range_2",
    "Verif.Angle.C35_range_partial",
    "Verif.Angle.C35_violated"
   ],
   "note": "Violated by FastAtan2 (greater than pi at (-1, 0)); excess below 2e-6 proved. FastAtan2_2 stays in range, every point."
  },
  {
   "property": "C36",
   "status": "proved",
   "theorems": [
    "Verif.Filt.C36_recurrence",
    "Verif.Filt.C36_complex",
    "Verif.Filt.C36_unique"
   ],
   "note": "Any field; coefficients as before construction; any output that does not overwrite unread input or the coefficients. The solution is shown unique."
  },
  {
   "property": "C37",
   "status": "proved",
   "theorems": [
    "Verif.Filt.C37_chunks",
    "Verif.Filt.C37_in_place"
   ],
   "note": "Law-free arithmetic, every filter state, every placement of input and output, every list of pieces; in-place equals out-of-place."
  },
  {
   "property": "C38",
   "status": "partial",
   "theorems": [
    "Verif.Filt.C38_unchanged_iff_partial",
    "Verif.Filt.C38_violated"
   ],
   "note": "Violated: witness with two different filters from the same slices. Exact condition (iff) for the arguments to stay unchanged."
  },
  {
   "property": "C39",
   "status": "partial",
   "theorems": [
    "Verif.Filt.C39_panics_iff_partial",
    "Verif.Filt.C39_violated"
   ],
   "note": "Violated: one coefficient panics on every non-empty input. Exact panic condition (iff) for every filter from the constructor."
  },
  {
   "property": "C40",
   "status": "proved",
   "theorems": [
    "Verif.Filt.C40_block_single",
    "Verif.Filt.C40_mixed",
    "Verif.Filt.C40_recurrence",
    "Verif.Filt.C40_constant",
    "Verif.Filt.C40_decay",
    "Verif.Filt.C40_decay_bound"
   ],
   "note": "Law-free equality of block and single interfaces, any mix; recurrence, constant response c*a^n and its decay in exact arithmetic."
  },
  {
   "property": "C41",
   "status": "proved",
   "theorems": [
    "Verif.Filt.C41_chunks_f32",
    "Verif.Filt.C41_chunks",
    "Verif.Filt.C41_f32_narrows",
    "Verif.Filt.C41_recurrence"
   ],
   "note": "Law-free arithmetic: any split into calls gives the same memory and state, F32 narrows after the double computation; over a field the difference equation is proved."
  },
  {
   "property": "C42",
   "status": "proved",
   "theorems": [
    "Verif.Filt.C42_low_pass",
    "Verif.Filt.C42_high_pass",
    "Verif.Filt.C42_band_pass_skirt",
    "Verif.Filt.C42_band_pass_peak",
    "Verif.Filt.C42_notch",
    "Verif.Filt.C42_all_pass",
    "Verif.Filt.C42_peaking",
    "Verif.Filt.C42_low_shelf",
    "Verif.Filt.C42_high_shelf",
    "Verif.Filt.C42_slope_sharp",
    "Verif.Filt.C42_bounded"
   ],
   "note": "Exact real arithmetic. Shelves need a positive radicand (SlopeOk), proved to hold for every gain when the slope is in (0,1]; C42_slope_sharp shows the condition is needed."
  },
  {
   "property": "C43",
   "status": "proved",
   "theorems": [
    "Verif.Filt.C43_low_pass_response",
    "Verif.Filt.C43_high_pass_response",
    "Verif.Filt.C43_skirt_response",
    "Verif.Filt.C43_peak_response",
    "Verif.Filt.C43_notch_response",
    "Verif.Filt.C43_all_pass_response",
    "Verif.Filt.C43_peaking_response",
    "Verif.Filt.C43_low_shelf_response",
    "Verif.Filt.C43_high_shelf_response",
    "Verif.Filt.C43_low_pass",
    "Verif.Filt.C43_high_pass",
    "Verif.Filt.C43_skirt",
    "Verif.Filt.C43_peak",
    "Verif.Filt.C43_notch",
    "Verif.Filt.C43_all_pass",
    "Verif.Filt.C43_peaking",
    "Verif.Filt.C43_low_shelf",
    "Verif.Filt.C43_high_shelf",
    "Verif.Filt.C43_steady_state"
   ],
   "note": "Exact real arithmetic. Each design equals, at every frequency, the analogue prototype its comment names with the warped frequency; the gains at zero, half the sample rate and the design frequency follow; C43_steady_state ties the response to what Filter outputs."
  },
  {
   "property": "C44",
   "status": "proved",
   "theorems": [
    "Verif.Filt.C44_biquad_linear",
    "Verif.Filt.C44_biquad_time_invariant",
    "Verif.Filt.C44_dc_linear",
    "Verif.Filt.C44_dc_time_invariant",
    "Verif.Filt.C44_iir_linear",
    "Verif.Filt.C44_iir_time_invariant"
   ],
   "note": "IIR, DC and biquad filters: superposition and time invariance for a filter at rest, over any field (exact arithmetic)."
  },
  {
   "property": "C45",
   "status": "proved",
   "theorems": [
    "Verif.Dft.C45_phase",
    "Verif.Dft.C45_phase_complex",
    "Verif.Dft.C45_dft",
    "Verif.Dft.C45_dft_complex",
    "Verif.Dft.C45_closest",
    "Verif.Dft.C45_exact_bin"
   ],
   "note": "Exact real arithmetic; detectors built by the constructors, one block gives the DFT bin, any length gives it times e^{jwn}; bucket is the nearest one and exact for whole cycles."
  },
  {
   "property": "C46",
   "status": "proved",
   "theorems": [
    "Verif.Dft.C46_chunks",
    "Verif.Dft.C46_chunks_complex",
    "Verif.Dft.C46_independent",
    "Verif.Dft.C46_independent_complex",
    "Verif.Dft.C46_calls",
    "Verif.Dft.C46_calls_complex"
   ],
   "note": "No arithmetic laws assumed; all three detector types; any sequence of Feed and Reset calls."
  },
  {
   "property": "C47",
   "status": "proved",
   "theorems": [
    "Verif.Dft.C47_dft",
    "Verif.Dft.C47_size"
   ],
   "note": "Exact complex arithmetic, every history, every bin and size; C47_size covers sizes zero and negative."
  },
  {
   "property": "C48",
   "status": "proved",
   "theorems": [
    "Verif.Dft.C48_bins",
    "Verif.Dft.C48_hanning",
    "Verif.Dft.C48_hamming",
    "Verif.Dft.C48_blackman"
   ],
   "note": "Exact complex arithmetic; every window via C48_bins and the three named frequency windows including wrap-around bins."
  },
  {
   "property": "C49",
   "status": "proved",
   "theorems": [
    "Verif.Down.C49_calls",
    "Verif.Down.C49_frame",
    "Verif.Down.C49_cut"
   ],
   "note": "No laws of arithmetic are used, so the statement holds bit for bit; any factor, any sequence of calls, output in place. Portable code; the amd64, 386 and arm64 entry points jump to it."
  },
  {
   "property": "C50",
   "status": "proved",
   "theorems": [
    "Verif.Down.C50_calls",
    "Verif.Down.C50_edge",
    "Verif.Down.C50_cut",
    "Verif.Down.C50_frame",
    "Verif.Down.C50_upsampling"
   ],
   "note": "No laws of arithmetic are used; 0 < slow <= fast. C50_upsampling shows what happens outside that range."
  },
  {
   "property": "C51",
   "status": "proved",
   "theorems": [
    "Verif.Rot.C51_value",
    "Verif.Rot.C51_panics",
    "Verif.Rot.C51_chunks",
    "Verif.Rot.C51_four",
    "Verif.Rot.C51_i32_value",
    "Verif.Rot.C51_i32_panics",
    "Verif.Rot.C51_i32_chunks"
   ],
   "note": "Element type is any type with a negation; rot_mul shows the specification is multiplication by i^n over the complex numbers. Both the complex64 and the int32 filter."
  },
  {
   "property": "C52",
   "status": "partial",
   "theorems": [
    "Verif.Rot.C52_violated",
    "Verif.Rot.C52_violated_outside",
    "Verif.Rot.C52_i32_partial",
    "Verif.Rot.C52_complex64_partial"
   ],
   "note": "Violated: C52_violated (every nonempty accepted slice), C52_violated_outside (writes after the slice). C52_i32_partial says exactly what the int32 ARM code does; C52_complex64_partial shows the complex64 ARM code is right for multiples of four. Addresses do not wrap."
  },
  {
   "property": "C53",
   "status": "partial",
   "theorems": [
    "Verif.Interp.C53_line_partial",
    "Verif.Interp.C53_sample_partial",
    "Verif.Interp.C53_between_partial",
    "Verif.Interp.C53_beyond_partial",
    "Verif.Interp.C53_violated",
    "Verif.Interp.C53_violated_large",
    "Verif.Interp.C53_f32",
    "Verif.Interp.C53_violated_f32"
   ],
   "note": "Violated: C53_violated (every negative position panics), C53_violated_large and C53_violated_f32 (positions from 2^63 on panic on amd64). The partial theorems cover positions from 0 to 2^63 in exact arithmetic. C53_f32 reduces LinearF32 to Linear."
  },
  {
   "property": "C54",
   "status": "partial",
   "theorems": [
    "Verif.Interp.C54_sample",
    "Verif.Interp.C54_quadratic",
    "Verif.Interp.C54_continuous_partial",
    "Verif.Interp.C54_slope",
    "Verif.Interp.C54_violated_shift",
    "Verif.Interp.C54_violated"
   ],
   "note": "Exact arithmetic. Violated for negative positions (C54_violated: jump at 0 whenever the first two samples differ); proved from 0 on, together with continuity of the slope at samples."
  },
  {
   "property": "C55",
   "status": "proved",
   "theorems": [
    "Verif.Window.C55_hamming",
    "Verif.Window.C55_hanning",
    "Verif.Window.C55_blackman",
    "Verif.Window.C55_nuttall",
    "Verif.Window.C55_triangle",
    "Verif.Window.C55_coefficients"
   ],
   "note": "Exact real arithmetic with decimal constants. IsWindow states symmetry, range, end values and the value in the middle of odd lengths."
  },
  {
   "property": "C56",
   "status": "partial",
   "theorems": [
    "Verif.Window.C56_violated",
    "Verif.Window.C56_finite_partial"
   ],
   "note": "Violated for length 1 (0/0) by all windows but the triangle; proved for all other lengths."
  },
  {
   "property": "C57",
   "status": "proved",
   "theorems": [
    "Verif.Demod.C57_value",
    "Verif.Demod.C57_panics",
    "Verif.Demod.C57_cut"
   ],
   "note": "No laws of arithmetic and any arctangent function, so the statement holds bit for bit for the portable code."
  },
  {
   "property": "C58",
   "status": "partial",
   "theorems": [
    "Verif.Demod.C58_rotation",
    "Verif.Demod.C58_increment_partial",
    "Verif.Demod.C58_increment_away_partial",
    "Verif.Demod.C58_violated"
   ],
   "note": "Exact arithmetic. Violated for nonzero samples of tiny magnitude (C58_violated); C58_increment_partial bounds the error for all magnitudes and C58_increment_away_partial gives 0.0102 for products of magnitudes from 1e-15 on."
  },
  {
   "property": "C59",
   "status": "proved",
   "theorems": [
    "Verif.Dtmf.C59_history",
    "Verif.Dtmf.C59_block",
    "Verif.Dtmf.C59_range",
    "Verif.Dtmf.C59_largest",
    "Verif.Dtmf.C59_keypad",
    "Verif.Dtmf.C59_digit"
   ],
   "note": "Model of DTMF.Feed, max and the constructors over arbitrary arithmetic. History independence, dependence on the first blockSize samples only, and the key range hold for any arithmetic, so also for float32. That row and column have the largest magnitudes is proved in exact arithmetic for full blocks, against the DFT of the windowed block."
  },
  {
   "property": "C60",
   "status": "partial",
   "theorems": [
    "Verif.Dtmf.C60_violated",
    "Verif.Dtmf.C60_violated_again",
    "Verif.Dtmf.C60_frame_partial"
   ],
   "note": "Violated: Feed multiplies the caller's samples by the window in place, so a second Feed of the same buffer sees the window applied twice (examples/dtmf_file.go does that with overlapping blocks). Partial: exactly the block is replaced by its windowed version and nothing else changes."
  },
  {
   "property": "C61",
   "status": "proved",
   "theorems": [
    "Verif.Borip.C61_one",
    "Verif.Borip.C61_sequence",
    "Verif.Borip.C61_mixed"
   ],
   "note": "Model of PacketReader with its persistent buffer and bounds checks. Proved for every sequence of well-formed datagrams and large enough slices, from any idle reader. C61_mixed: also with failing reads in between, which return the error and leave slice and header as they are."
  },
  {
   "property": "C62",
   "status": "partial",
   "theorems": [
    "Verif.Borip.C62_violated",
    "Verif.Borip.C62_violated_short",
    "Verif.Borip.C62_violated_panic",
    "Verif.Borip.C62_complete_partial"
   ],
   "note": "Violated in three ways: payloads that are not a multiple of four bytes deliver bytes of earlier datagrams (for every such datagram); after a datagram shorter than its header the next call decodes header and stale bytes without receiving; a short slice panics. Partial: on an idle reader with a complete header and a large enough slice every complete sample is right and at most one more is delivered."
  },
  {
   "property": "C63",
   "status": "partial",
   "theorems": [
    "Verif.Borip.C63_others_partial",
    "Verif.Borip.C63_violated"
   ],
   "note": "Violated: SetRate panics exactly on replies of one word and OK (proved as an equivalence). Partial: no other call panics, whatever the reply; SelectDevice is safe only because TrimSpace removed a trailing blank."
  },
  {
   "property": "C64",
   "status": "proved",
   "theorems": [
    "Verif.Borip.C64_running"
   ],
   "note": "Proved over every sequence of calls and replies, with the specification stated on the log of exchanged lines."
  },
  {
   "property": "C65",
   "status": "partial",
   "theorems": [
    "Verif.Borip.C65_headers_partial",
    "Verif.Borip.C65_short_partial",
    "Verif.Borip.C65_violated"
   ],
   "note": "Violated: the callback converts buf[:nValues] for every packet, so each packet after the first repeats the beginning of the buffer; the payload is right exactly when the buffer repeats its first 8192 bytes (the server asks for 32768-byte buffers). Partial: sequence numbers and start flag are right for all buffers, and payloads are right for buffers of at most 8192 bytes. Memory level model using the verified conversion loop."
  },
  {
   "property": "C66",
   "status": "proved",
   "theorems": [
    "Verif.Borip.C66_exclusive",
    "Verif.Borip.C66_released",
    "Verif.Borip.C66_current"
   ],
   "note": "Proved over every interleaving of commands, disconnects, driver results and callbacks, stated on the log of hardware openings and closings: between two openings of a device its opener closed it; a connection that ended has closed all it opened; the device of a living connection is open and no other one's."
  },
  {
   "property": "C67",
   "status": "partial",
   "theorems": [
    "Verif.Borip.C67_violated",
    "Verif.Borip.C67_violated_disconnect",
    "Verif.Borip.C67_violated_race",
    "Verif.Borip.C67_violated_gains",
    "Verif.Borip.C67_violated_any",
    "Verif.Borip.C67_careful_partial"
   ],
   "note": "Violated: two stops (or a stop and a disconnect) before the next callback close the channel twice, from any state with a closed channel; a callback between test and close closes a nil channel; a tuner reporting fewer than two gains indexes out of range. Partial: executions without these three patterns never panic."
  },
  {
   "property": "C68",
   "status": "partial",
   "theorems": [
    "Verif.Borip.C68_request",
    "Verif.Borip.C68_failed",
    "Verif.Borip.C68_released",
    "Verif.Borip.C68_understood_partial",
    "Verif.Borip.C68_violated",
    "Verif.Borip.C68_violated_destination",
    "Verif.Borip.C68_violated_antenna"
   ],
   "note": "Violated: selecting a device always fails for the client (seven fields sent, eight wanted), setting the destination always reports an error, and the antenna query returns \"OK default\". Partial: every other operation that succeeds on the server succeeds for the client with the value meant. Library number formatting and trimming enter as stated laws, shown satisfiable by a concrete library. C68_failed: a call whose exchange fails returns the error of the connection and leaves device and running flag as they are."
  },
  {
   "property": "C69",
   "status": "proved",
   "theorems": [
    "Verif.Cpu.C69_total",
    "Verif.Cpu.C69_required",
    "Verif.Cpu.C69_absent",
    "Verif.Cpu.C69_last",
    "Verif.Cpu.C69_untouched"
   ],
   "note": "Proved for every string and every table with distinct names and features: no panic, required features unchanged, absent features never enabled, the last field that concerns a feature decides, other fields have no effect. Fields and requests are specified as text, independently of the parser."
  },
  {
   "property": "C70",
   "status": "partial",
   "theorems": [
    "Verif.Cpu.C70_violated",
    "Verif.Cpu.C70_violated_avx",
    "Verif.Cpu.C70_safe_partial",
    "Verif.Cpu.C70_detection_partial"
   ],
   "note": "Violated on every machine: nothing calls Initialize, so the flags stay false; if it were called, the AVX2 flag would be set on machines with only AVX. Partial: no unsupported code is enabled, and the detection itself is exact."
  },
  {
   "property": "C71",
   "status": "partial",
   "theorems": [
    "Verif.Ax25.C71_violated_misaligned_processed",
    "Verif.Ax25.C71_violated_frame_returned",
    "Verif.Ax25.C71_misaligned_rejected_partial"
   ],
   "note": "Violated: every misaligned frame is completed with bits of the closing flag and processed; witness of a returned frame. Partial: rejected unless the completed octets pass the check."
  },
  {
   "property": "C72",
   "status": "partial",
   "theorems": [
    "Verif.Ax25.C72_violated_info_dropped",
    "Verif.Ax25.C72_info_delivered_partial"
   ],
   "note": "Violated: XID, TEST, FRMR information is dropped, for every such frame. Partial: information and UI frames deliver it."
  },
  {
   "property": "C73",
   "status": "proved",
   "theorems": [
    "Verif.Interp.C73_constant4",
    "Verif.Interp.C73_constant6",
    "Verif.Interp.C73_reverse",
    "Verif.Interp.C73_linear",
    "Verif.Interp.C73_violated_negative"
   ],
   "note": "Exact arithmetic, positions from 0 on for constants and reversal; linearity everywhere. C73_violated_negative shows negative positions return the value one sample later."
  },
  {
   "property": "C74",
   "status": "proved",
   "theorems": [
    "Verif.Window.C74_hamming",
    "Verif.Window.C74_hanning",
    "Verif.Window.C74_blackman"
   ],
   "note": "Exact arithmetic over the complex numbers."
  },
  {
   "property": "C75",
   "status": "partial",
   "theorems": [
    "Verif.Demod.C75_agrees_partial",
    "Verif.Demod.C75_short",
    "Verif.Demod.C75_violated"
   ],
   "note": "Exact arithmetic (rounding, NaNs and the memory are in C133). Violated for an output shorter than the input (C75_violated); agrees otherwise."
  },
  {
   "property": "C76",
   "status": "partial",
   "theorems": [
    "Verif.Borip.C76_violated",
    "Verif.Borip.C76_violated_antenna",
    "Verif.Borip.C76_reported_partial"
   ],
   "note": "Violated: Destination and Antenna return the complaint of the server as a value. Partial: every other failing operation is an error for the client."
  },
  {
   "property": "C77",
   "status": "partial",
   "theorems": [
    "Verif.Borip.C77_one_line_partial",
    "Verif.Borip.C77_violated"
   ],
   "note": "Violated: a newline in an antenna, destination or hint makes the rest a command of its own. Partial: strings without newline give exactly one line."
  },
  {
   "property": "C78",
   "status": "proved",
   "theorems": [
    "Verif.Cpu.C78_name",
    "Verif.Cpu.C78_short"
   ],
   "note": "Proved for every CPUID result, against the byte order of the processor manuals."
  },
  {
   "property": "C79",
   "status": "partial",
   "theorems": [
    "Verif.Arm.C79_ui8tof32",
    "Verif.Arm.C79_vscale_partial",
    "Verif.Arm.C79_violated"
   ],
   "note": "Ui8tof32: equal to the portable code for all slices (on empty slices it does nothing where the portable code panics). VScaleF32: equal unless the output starts strictly inside the input, where C79_violated shows a difference."
  },
  {
   "property": "C80",
   "status": "partial",
   "theorems": [
    "Verif.Arm.C80_max_partial",
    "Verif.Arm.C80_min_partial",
    "Verif.Arm.C80_violated_nan",
    "Verif.Arm.C80_order"
   ],
   "note": "Without NaNs the result is an element of the slice at the portable extreme (the sign of a zero may differ: +0 wins for the maximum, -0 for the minimum). Violated by every slice with a NaN: arm64 returns NaN, the portable code never does."
  },
  {
   "property": "C81",
   "status": "partial",
   "theorems": [
    "Verif.Arm.C81_ui8toi16_partial",
    "Verif.Arm.C81_ui8toi16_bytes_partial",
    "Verif.Arm.C81_violated_ui8toi16",
    "Verif.Arm.C81_ui8tof32_partial",
    "Verif.Arm.C81_violated_ui8tof32",
    "Verif.Arm.C81_ui8toc64_partial",
    "Verif.Arm.C81_f32toi16_partial",
    "Verif.Arm.C81_violated_f32toi16",
    "Verif.Arm.C81_f32toi16ble_partial"
   ],
   "note": "Partial: proved when the input slice lies in one half of the address space. Violated otherwise: the loops compare addresses as signed numbers and stop after the first block and one element when the slice goes across 2^31. Empty Ui8tof32 does nothing where the portable code panics."
  },
  {
   "property": "C82",
   "status": "partial",
   "theorems": [
    "Verif.Arm.C82_complex",
    "Verif.Arm.C82_rational_partial",
    "Verif.Arm.C82_violated_rational"
   ],
   "note": "The complex filter is proved for every state it can reach. The rational filter compares 32-bit addresses as signed words: proved when the samples lie in one half of the address space; samples across address 2^31 are all skipped, shown by C82_violated_rational."
  },
  {
   "property": "C83",
   "status": "partial",
   "theorems": [
    "Verif.Arm.C83_scale",
    "Verif.Arm.C83_scale_same_partial",
    "Verif.Arm.C83_violated_scale",
    "Verif.Arm.C83_abs_partial",
    "Verif.Arm.C83_abs_vector_partial",
    "Verif.Arm.C83_violated_abs",
    "Verif.Arm.C83_max_scalar",
    "Verif.Arm.C83_max_partial",
    "Verif.Arm.C83_violated_nan",
    "Verif.Arm.C83_violated_subnormal"
   ],
   "note": "Scaling: exact memory with either unit; equal to the portable code without subnormal numbers in the NEON blocks; NEON flushes subnormals (violated). Magnitude: equal outside vector mode; vector mode sets the reserved stride bits 01, so its result is not determined by the architecture (violated); equal if a machine takes them to mean 2. Maximum: equal without NEON for all values; with NEON equal without NaNs and subnormals, violated by a NaN in the blocks and by negative subnormals."
  },
  {
   "property": "C84",
   "status": "proved",
   "theorems": [
    "Verif.Borip.C84_record",
    "Verif.Borip.C84_close"
   ],
   "note": "Describes is a separate specification of a device line; the log of exchanges determines the device. Added after two wrong programs (device not remembered, Close releasing when none is held) were not noticed by C63 and C64."
  },
  {
   "property": "C85",
   "status": "partial",
   "theorems": [
    "Verif.Arm.C85_fast_partial",
    "Verif.Arm.C85_fast2_partial",
    "Verif.Arm.C85_violated_diagonal",
    "Verif.Arm.C85_violated_zero",
    "Verif.Arm.C85_exact",
    "Verif.Arm.C85_exact2_partial",
    "Verif.Arm.C85_error"
   ],
   "note": "Violated: on the diagonals |y| = |x| FastAtan2_2 takes the other branch (25/32 instead of 0.7895 at (q, q)); NaNs with a zero x give -pi/2 instead of 0; zeros keep their sign. FastAtan2 is characterised exactly (iff); FastAtan2_2 is equal off these points. The error bound 0.005 holds everywhere in exact arithmetic."
  },
  {
   "property": "C86",
   "status": "partial",
   "theorems": [
    "Verif.Arm.C86_turned",
    "Verif.Arm.C86_complex64_partial",
    "Verif.Arm.C86_violated",
    "Verif.Arm.C86_i32_partial",
    "Verif.Arm.C86_violated_i32"
   ],
   "note": "Violated: the loop end is compared as a signed number, so a slice that goes on past 2^31 has only its first four samples turned. C86_turned gives the exact number of groups for every address; equal to C52 for slices in one half."
  },
  {
   "property": "C87",
   "status": "partial",
   "theorems": [
    "Verif.Dtmf.C87_printed",
    "Verif.Dtmf.C87_once",
    "Verif.Dtmf.C87_heard",
    "Verif.Dtmf.C87_seen",
    "Verif.Dtmf.C87_violated_window",
    "Verif.Dtmf.C87_file",
    "Verif.Dtmf.C87_live",
    "Verif.Dtmf.C87_full_partial",
    "Verif.Dtmf.C87_violated_short"
   ],
   "note": "Printing: proved. Samples: violated in two ways. Feed windows the buffer in place, so older samples of a block have been multiplied by the window up to four times before (C87_seen gives the exact product). The byte count of Read is ignored, so a short read uses stale bytes again; with full reads the samples are those of the file."
  },
  {
   "property": "C88",
   "status": "partial",
   "theorems": [
    "Verif.Ax25.Clock.C88_bounded",
    "Verif.Ax25.Clock.C88_idle",
    "Verif.Ax25.Clock.C88_locked",
    "Verif.Ax25.Clock.C88_relock_partial",
    "Verif.Ax25.Clock.C88_received",
    "Verif.Ax25.Clock.C88_violated_first"
   ],
   "note": "Exact arithmetic for the float64 times; the input is the difference of magnitudes per window. C88_violated_first: the first of two changes can be lost. C88_relock_partial: only that one, after any input at all. As written the example does not compile against this repository (argument types of NewGoertzel and Feed); its loop is modelled as meant."
  },
  {
   "property": "C89",
   "status": "partial",
   "theorems": [
    "Verif.Angle.C89_fast_partial",
    "Verif.Angle.C89_fast2_partial",
    "Verif.Angle.C89_violated_nan",
    "Verif.Angle.C89_violated_large",
    "Verif.Angle.C89_violated_small"
   ],
   "note": "Portable code in binary32, rounding included. FastAtan2_2 is within 0.005 of the angle for all finite arguments whose quotient does not overflow, and is NaN exactly beyond that (C141_fast2_iff). FastAtan2 is within 0.0102 when the larger magnitude is at least 1e-15 and the magnitudes add to at most 3.402823e38; from 3.402824e38 on it returns an eighth turn whatever the point, and near the origin the added constant 1e-20 spoils the result. The full statement is therefore violated and the theorems inside the ranges are named _partial. Nothing is fused here; C141 has the same bounds whatever is fused."
  },
  {
   "property": "C90",
   "status": "partial",
   "theorems": [
    "Verif.Demod.C90_demodulate_partial",
    "Verif.Demod.C90_first",
    "Verif.Demod.C90_violated_small",
    "Verif.Demod.C90_violated_turn"
   ],
   "note": "Portable code in binary32. Proved for successive samples whose product of magnitudes is between 3e-15 and 1e38, up to a whole turn, which can only be lost within a millionth of half a turn (C90_violated_turn shows that it does happen). Violated for samples of magnitude 2^-40, where the constant 1e-20 dominates. C90_first: output 0 after the zero state for any sample at all."
  },
  {
   "property": "C91",
   "status": "partial",
   "theorems": [
    "Verif.Filt.C91_plain",
    "Verif.Filt.C91_bounded",
    "Verif.Filt.C91_settles",
    "Verif.Filt.C91_error_partial",
    "Verif.Filt.C91_violated_one",
    "Verif.Filt.C91_violated_cycle"
   ],
   "note": "For every way of fusing, sample by sample: bounded; settles exactly when the choice is the same at every sample; the error bound 9uX/(1-|a|)^2 needs the coefficient a hundred units away from one and samples above the underflow threshold. Violated, fused or not, for a coefficient of one (the output dies after 2^p samples) and, for settling, with a negative coefficient (limit cycle at the least positive magnitude)."
  },
  {
   "property": "C92",
   "status": "partial",
   "theorems": [
    "Verif.Filt.C92_complex_partial",
    "Verif.Filt.C92_iir_small_partial",
    "Verif.Filt.C92_complex_small_partial",
    "Verif.Filt.C92_biquad_small_partial",
    "Verif.Filt.C92_violated_overflow",
    "Verif.Filt.C92_iir_partial",
    "Verif.Filt.C92_biquad_partial",
    "Verif.Filt.C92_gain",
    "Verif.Filt.C92_f32_partial"
   ],
   "note": "IIR filters of every order, the complex filters and biquads (double precision, and FilterF32 with its conversions) in the rounded arithmetic of every binary format; the bound holds for streams of all lengths. The complex products may be compiled in any of the ways of CMul; the real filters are unfused here and arbitrary in C141. The _small theorems cover samples however near underflow, with a larger absolute term. C92_gain shows that the amplification is finite for every biquad with its poles inside the unit circle. C92_violated_overflow: with samples near overflow a biquad whose exact outputs are all representable gives an infinite or undefined output. Missing: feedback so strong that 8(d+3)u(1 + SA H) exceeds one, and coefficients near underflow."
  },
  {
   "property": "C93",
   "status": "partial",
   "theorems": [
    "Verif.Dft.C93_error_partial",
    "Verif.Dft.C93_integers",
    "Verif.Dft.C93_violated"
   ],
   "note": "However complex products are compiled (plain, fused, or through double precision). Violated: the accumulators are never refreshed, so one large sample leaves an error for ever (C93_violated: two ones in the window, output zero at every later sample, for every compilation). Partial: an error bound that grows linearly with the number of samples, for every window, bin and size, given the accuracy of cmplx.Exp; C93_integers: bin zero of integer samples is exact for all time."
  },
  {
   "property": "C94",
   "status": "partial",
   "theorems": [
    "Verif.Link.C94_layout",
    "Verif.Link.C94_violated",
    "Verif.Link.C94_linked_partial",
    "Verif.Link.C94_declared",
    "Verif.Link.C94_windows_violated",
    "Verif.Link.C94_accesses",
    "Verif.Link.C94_names_partial",
    "Verif.Link.C94_names_violated",
    "Verif.Link.C94_jumps",
    "Verif.Link.C94_targets",
    "Verif.Link.C94_complete"
   ],
   "note": "Proved for all signatures (layout) and over the complete tables of the four architectures. Violated: VMinF32 is defined on amd64 and arm64 only, I16ToBLE on amd64 only; stub_windows.go declares Ui8tof32 a second time; demod_arm.s:92 writes the result under the name of a parameter. The partial theorems cover everything else."
  },
  {
   "property": "C95",
   "status": "partial",
   "theorems": [
    "Verif.Cpu.Arch.C95_has",
    "Verif.Cpu.Arch.C95_has_violated",
    "Verif.Cpu.Arch.C95_s390x",
    "Verif.Cpu.Arch.C95_arm",
    "Verif.Cpu.Arch.C95_arm64_hwcap",
    "Verif.Cpu.Arch.C95_android",
    "Verif.Cpu.Arch.C95_freebsd_partial",
    "Verif.Cpu.Arch.C95_freebsd_violated",
    "Verif.Cpu.Arch.C95_darwin",
    "Verif.Cpu.Arch.C95_mips_ppc",
    "Verif.Cpu.Arch.C95_power8_violated",
    "Verif.Cpu.Arch.C95_hwcap_violated",
    "Verif.Cpu.Arch.C95_options",
    "Verif.Cpu.Arch.C95_named",
    "Verif.Cpu.Arch.C95_mandatory_violated"
   ],
   "note": "Proved for all machine states. Violated: on FreeBSD/arm64 atomics are reported missing for field value 3; IsPOWER8 is never set; nothing in this repository sets HWCap, so no feature is reported on arm, arm64 Linux, mips64x and ppc64x; the mandatory features of s390x can be switched off; Has of a query panics for codes from 128 on (no caller does that)."
  },
  {
   "property": "C96",
   "status": "partial",
   "theorems": [
    "Verif.Cpu.Neon.C96_flags",
    "Verif.Cpu.Neon.C96_sound_partial",
    "Verif.Cpu.Neon.C96_complete_partial",
    "Verif.Cpu.Neon.C96_violated",
    "Verif.Cpu.Neon.C96_word_violated",
    "Verif.Cpu.Neon.C96_nofile"
   ],
   "note": "The matcher is proved equal to the meaning of the expressions for all expressions and texts. Violated: only the first 2048 bytes are read; a part of a word is taken for the word. Partial: sound up to parts of words, complete for files of at most 2048 bytes."
  },
  {
   "property": "C97",
   "status": "partial",
   "theorems": [
    "Verif.Dft.C97_complex",
    "Verif.Dft.C97_dft",
    "Verif.Dft.C97_magnitude_partial",
    "Verif.Dft.C97_complex_detector",
    "Verif.Dft.C97_complex_magnitude",
    "Verif.Dft.C97_tuned",
    "Verif.Dft.C97_single",
    "Verif.Dft.C97_violated"
   ],
   "note": "C97_complex, C97_dft, C97_magnitude_partial, C97_complex_detector, C97_complex_magnitude, C97_single: error bounds for any number of samples; C97_tuned: the constructor loses nothing beyond the library sine and cosine, which are a parameter. Violated: Goertzel.Magnitude can be negative (C97_violated: -16 for a 0 Hz detector and two samples whose exact magnitude is 1)."
  },
  {
   "property": "C98",
   "status": "partial",
   "theorems": [
    "Verif.Dft.C98_unfused",
    "Verif.Dft.C98_complex_partial",
    "Verif.Dft.C98_magnitude_partial",
    "Verif.Dft.C98_detector_partial",
    "Verif.Dft.C98_bits_violated"
   ],
   "note": "C98_complex_partial, C98_magnitude_partial, C98_detector_partial: every allowed choice of fused operations stays within the bounds of C97; C98_unfused: not fusing is one of the choices. Violated: the bits depend on the platform (C98_bits_violated: -16 or 0 for the same samples)."
  },
  {
   "property": "C99",
   "status": "partial",
   "theorems": [
    "Verif.Dft.C99_bucket_partial",
    "Verif.Dft.C99_violated",
    "Verif.Dft.C99_new",
    "Verif.Dft.C99_block"
   ],
   "note": "C99_bucket_partial: the bucket computed with rounding is the nearest one if blockSize*f + sampleRate <= 2^50; C99_new: the coefficients; C99_block: constructor, Feed and Complex end to end against the DFT. Violated beyond the bound on the parameters (C99_violated: a target below half a bucket goes to bucket one)."
  },
  {
   "property": "C100",
   "status": "proved",
   "theorems": [
    "Verif.Interp.C100_floor",
    "Verif.Interp.C100_line",
    "Verif.Interp.C100_linear64",
    "Verif.Interp.C100_linear32",
    "Verif.Interp.C100_hermite",
    "Verif.Interp.C100_optimal4",
    "Verif.Interp.C100_optimal6",
    "Verif.Interp.C100_between",
    "Verif.Interp.C100_monotone",
    "Verif.Interp.C100_sample",
    "Verif.Interp.C100_violated_overflow",
    "Verif.Interp.C100_violated_nan"
   ],
   "note": "Positions must be finite and, for the in-between property, non-negative and below 2^63. Where the difference of two samples overflows the result is NaN; a NaN position makes the linear interpolators panic (both proved as violations). Conversion of out-of-range floats to int as on amd64."
  },
  {
   "property": "C101",
   "status": "proved",
   "theorems": [
    "Verif.WinFp.C101_window",
    "Verif.WinFp.C101_hamming",
    "Verif.WinFp.C101_blackman",
    "Verif.WinFp.C101_nuttall",
    "Verif.WinFp.C101_hanning",
    "Verif.WinFp.C101_hanning_range",
    "Verif.WinFp.C101_triangle",
    "Verif.WinFp.C101_triangle_error",
    "Verif.WinFp.C101_violated_blackman",
    "Verif.WinFp.C101_violated_nuttall",
    "Verif.WinFp.C101_violated_one",
    "Verif.WinFp.C101_triangle_lists",
    "Verif.WinFp.C101_triangle_middle",
    "Verif.WinFp.C101_shape"
   ],
   "note": "math.Cos is a parameter, assumed accurate to eta on arguments up to 21 in magnitude (what the Go library promises is not modelled). The negative first elements, and the NaN of windows of one element, are proved as violations."
  },
  {
   "property": "C102",
   "status": "proved",
   "theorems": [
    "Verif.Angle.C102_fast_range",
    "Verif.Angle.C102_lut_range",
    "Verif.Angle.C102_fast_agrees",
    "Verif.Angle.C102_fast_error",
    "Verif.Angle.C102_violated_fast",
    "Verif.Angle.C102_lut_agrees",
    "Verif.Angle.C102_lut_error",
    "Verif.Angle.C102_violated_lut",
    "Verif.Angle.C102_table",
    "Verif.Angle.C102_table_monotone",
    "Verif.Angle.C102_lut"
   ],
   "note": "math.Atan is a parameter, assumed accurate to 2^-30 between 0 and 512 (and monotone for the monotone table). The wrong results and panics from 2^19 and 2^23 on are proved as violations."
  },
  {
   "property": "C103",
   "status": "proved",
   "theorems": [
    "Verif.Dtmf.C103_rounded",
    "Verif.Dtmf.C103_unfused",
    "Verif.Dtmf.C103_blind",
    "Verif.Dtmf.C103_violated_short",
    "Verif.Dtmf.C103_violated_short_exact",
    "Verif.Dtmf.C103_key"
   ],
   "note": "C103_key in exact arithmetic, C103_rounded for every floating point implementation, C103_unfused: the function without fused operations is one of them. The window kernel is bounded for all block lengths by its closed form. C103_blind and C103_violated_short: what short blocks cannot do. Assumed: math.Cos and math.Sin within 2^-50 of the exact values on the arguments used."
  },
  {
   "property": "C104",
   "status": "proved",
   "theorems": [
    "Verif.Ax25.C104_injective",
    "Verif.Ax25.C104_type",
    "Verif.Ax25.C104_supervisory",
    "Verif.Ax25.C104_unnumbered",
    "Verif.Ax25.C104_address",
    "Verif.Ax25.C104_ssid",
    "Verif.Ax25.C104_ssid_range",
    "Verif.Ax25.C104_violated_negative"
   ],
   "note": "Names of protocol identifiers, types and addresses. Injectivity by a left inverse checked over all 256 bytes; negative SSIDs print ambiguously (C104_violated_negative)."
  },
  {
   "property": "C105",
   "status": "proved",
   "theorems": [
    "Verif.Asm.C105_result",
    "Verif.Asm.C105_accepts",
    "Verif.Asm.C105_accepts_same",
    "Verif.Asm.C105_violated_silent",
    "Verif.Asm.C105_violated_scale"
   ],
   "note": "The target accepts every input on amd64 and never reports a failure (C105_violated_silent, C105_violated_scale)."
  },
  {
   "property": "C106",
   "status": "proved",
   "theorems": [
    "Verif.Borip.C106_table",
    "Verif.Borip.C106_default",
    "Verif.Borip.C106_list",
    "Verif.Borip.C106_selectable",
    "Verif.Borip.C106_violated_duplicate",
    "Verif.Borip.C106_violated_default"
   ],
   "note": "Map traversal is any permutation of the entries. Equal names hide receivers (C106_violated_duplicate, C106_violated_default)."
  },
  {
   "property": "C107",
   "status": "proved",
   "theorems": [
    "Verif.Borip.C107_recorded",
    "Verif.Borip.C107_lossless",
    "Verif.Borip.C107_no_panic",
    "Verif.Borip.C107_session",
    "Verif.Borip.C107_violated_server",
    "Verif.Borip.C107_violated_nil"
   ],
   "note": "Recording loop and main function of rx.go over the packet reader of C61 and the client of C63. Float32bits is modelled and read back by the IEEE-754 rule. The program cannot work with boripserver (C107_violated_server) and panics without a device (C107_violated_nil)."
  },
  {
   "property": "C108",
   "status": "proved",
   "theorems": [
    "Verif.Filt.C108_peaking",
    "Verif.Filt.C108_low_shelf_fused",
    "Verif.Filt.C108_high_shelf_fused",
    "Verif.Filt.C108_low_shelf",
    "Verif.Filt.C108_high_shelf",
    "Verif.Filt.C108_violated_sharp",
    "Verif.Filt.C108_violated_low",
    "Verif.Filt.C108_low_pass",
    "Verif.Filt.C108_high_pass",
    "Verif.Filt.C108_band_pass_skirt",
    "Verif.Filt.C108_band_pass_peak",
    "Verif.Filt.C108_notch",
    "Verif.Filt.C108_all_pass",
    "Verif.Filt.C108_near_low_pass",
    "Verif.Filt.C108_near_high_pass",
    "Verif.Filt.C108_near_notch",
    "Verif.Filt.C108_near_all_pass",
    "Verif.Filt.C108_near_band_pass_peak",
    "Verif.Filt.C108_near_band_pass_skirt"
   ],
   "note": "Low-pass, high-pass, band-pass (2), notch, all-pass: stability and accuracy; peaking and shelves: stability (shelves also with fused operations); their accuracy is C143. Failures proved: quality factor from 2^57, frequency below 2^-31 of the sample rate."
  },
  {
   "property": "C109",
   "status": "proved",
   "theorems": [
    "Verif.Down.C109_complex_rounded",
    "Verif.Down.C109_complex_exact",
    "Verif.Down.C109_rational_rounded",
    "Verif.Down.C109_rational_exact",
    "Verif.Down.C109_violated_long"
   ],
   "note": "Complex decimator: rounded bound and exactness for any format; rational decimator: binary32, Fast < 2^22, M <= 2^64. C109_violated_long: the sum of ones stops at 2^24. Streams whose sums overflow are not classified."
  },
  {
   "property": "C110",
   "status": "partial",
   "theorems": [
    "Verif.X86.Avo.C110_converts_partial",
    "Verif.X86.Avo.C110_violated",
    "Verif.X86.Avo.C110_violated_fault",
    "Verif.X86.Avo.C110_returns_iff",
    "Verif.X86.Avo.C110_value"
   ],
   "note": "Instruction-level machine (registers, vector bytes, flags, byte memory with access rights). Violated for lengths over 32 with n % 16 less than the number of elements before the 16-byte boundary: the last block reads and overwrites memory behind the slices (C110_violated) or faults (C110_violated_fault); all other cases proved (C110_converts_partial), and C110_returns_iff shows the cases are exactly these. C110_value gives the IEEE-754 values."
  },
  {
   "property": "C111",
   "status": "partial",
   "theorems": [
    "Verif.X86.Conv.C111_converts_partial",
    "Verif.X86.Conv.C111_violated",
    "Verif.X86.Conv.C111_violated_fault",
    "Verif.X86.Conv.C111_returns_iff",
    "Verif.X86.Conv.C111_violated_bp",
    "Verif.X86.Conv.C111_value"
   ],
   "note": "Lines 317-461 of conversion_amd64.s on the machine of X86Model. Partial: overruns in exactly the stated cases (C111_violated, C111_violated_fault, C111_returns_iff); BP is lost over 32 elements (C111_violated_bp)."
  },
  {
   "property": "C112",
   "status": "partial",
   "theorems": [
    "Verif.X86.Conv.C112_converts_partial",
    "Verif.X86.Conv.C112_violated",
    "Verif.X86.Conv.C112_value"
   ],
   "note": "The tail jump composes the programs of conversion_amd64.s and conversion_avo_amd64.s. Partial: overruns with Ui8tof32 (C112_violated)."
  },
  {
   "property": "C113",
   "status": "proved",
   "theorems": [
    "Verif.X86.Conv.C113_Ui8toi16",
    "Verif.X86.Conv.C113_Ui8toi16b",
    "Verif.X86.Conv.C113_value"
   ],
   "note": "Full for both routines; the value of a sample as a signed number in C113_value."
  },
  {
   "property": "C114",
   "status": "proved",
   "theorems": [
    "Verif.X86.Conv.C114_F32toi16",
    "Verif.X86.Conv.C114_F32toi16ble",
    "Verif.X86.Conv.C114_violated_bp",
    "Verif.X86.Conv.C114_sample",
    "Verif.X86.Conv.C114_in_range",
    "Verif.X86.Conv.C114_violated_place",
    "Verif.X86.Conv.C114_value",
    "Verif.X86.Conv.C114_violated_overflow"
   ],
   "note": "Exact description of memory for all inputs; violated: clipping depends on the place (C114_violated_place says for which integer parts), products from 2^31 become -32768 or 0, the frame pointer is overwritten unless the count is a multiple of 32."
  },
  {
   "property": "C115",
   "status": "proved",
   "theorems": [
    "Verif.X86.Conv.C115_I16bleToF64",
    "Verif.X86.Conv.C115_I16bleToF32",
    "Verif.X86.Conv.C115_value64",
    "Verif.X86.Conv.C115_value32"
   ],
   "note": "Full, for both instruction sequences. The value statements are for scales and products that are finite."
  },
  {
   "property": "C116",
   "status": "proved",
   "theorems": [
    "Verif.X86.Math.C116_VScaleF32",
    "Verif.X86.Math.C116_all_iff",
    "Verif.X86.Math.C116_violated",
    "Verif.X86.Math.C116_value"
   ],
   "note": "Every instruction of the routine on the machine model, any features, any addresses, in place allowed (C116_VScaleF32); exactly when all numbers are scaled (C116_all_iff); otherwise the rest keeps its bytes (C116_violated), so the routine does not scale every slice; IEEE-754 value of a product (C116_value)."
  },
  {
   "property": "C117",
   "status": "proved",
   "theorems": [
    "Verif.X86.Math.C117_VMaxF32",
    "Verif.X86.Math.C117_VMaxF32_all",
    "Verif.X86.Math.C117_VMinF32",
    "Verif.X86.Math.C117_VMinF32_all",
    "Verif.X86.Math.C117_violated"
   ],
   "note": "Every instruction of both routines on the machine model with IEEE-754 comparisons, any features and addresses: exact result with not-a-numbers anywhere (C117_VMaxF32, C117_VMinF32), the extreme of all numbers if there are none in the vector part (…_all); a not-a-number in the last place of the vector part becomes the result (C117_violated)."
  },
  {
   "property": "C118",
   "status": "proved",
   "theorems": [
    "Verif.X86.Gen.C118_generated"
   ],
   "note": "The generator as a monad that emits lines with virtual registers, the checked-in file line by line: equal under an allocation of registers (C118_generated), and a general theorem on renaming by an allocation without interference (liveness over all paths) that holds for every meaning of the instructions. The avo library itself is not in the repository and not modelled."
  },
  {
   "property": "C119",
   "status": "partial",
   "theorems": [
    "Verif.X86.C119_conversion",
    "Verif.X86.C119_others_partial",
    "Verif.X86.C119_violated"
   ],
   "note": "Which general register an instruction can change is proved for all instructions of the machine model; every run of every routine but I8tof32, F32toi16 and F32toi16ble keeps BP (C119_conversion, C119_others_partial), these three do not (C119_violated, C119_conversion; exactly when: C111_violated_bp, C114_violated_bp)."
  },
  {
   "property": "C120",
   "status": "proved",
   "theorems": [
    "Verif.A64.C120_decode",
    "Verif.A64.C120_comments",
    "Verif.A64.C120_line"
   ],
   "note": "Bit formats of the 15 instructions; decode_iff for any table of pairwise clashing formats, C120_decode for this one; every WORD line of both files against its comment (whole finite table)."
  },
  {
   "property": "C121",
   "status": "proved",
   "theorems": [
    "Verif.A64.Conv.C121_converts",
    "Verif.A64.Conv.C121_only",
    "Verif.A64.Conv.C121_value"
   ],
   "note": "Line-by-line run on the arm64 machine model, words decoded; all states, lengths and addresses (no overlap of input and output); C121_value with IEEE-754 values."
  },
  {
   "property": "C122",
   "status": "proved",
   "theorems": [
    "Verif.A64.Math.C122_scales",
    "Verif.A64.Math.C122_only",
    "Verif.A64.Math.C122_value",
    "Verif.A64.Math.C122_same"
   ],
   "note": "Line-by-line run, also in place; C122_value with IEEE-754 values; C122_same compares with the amd64 run of C116."
  },
  {
   "property": "C123",
   "status": "proved",
   "theorems": [
    "Verif.A64.Math.C123_VMaxF32",
    "Verif.A64.Math.C123_VMinF32",
    "Verif.A64.Math.C123_max_unique",
    "Verif.A64.Math.C123_min_unique"
   ],
   "note": "Line-by-line run; the result is that of the structured model of C80 on bits; MaxOf/MinOf determine the value (C123_max_unique, C123_min_unique). fmax, fmaxv and FMAXS are assumed to compute FMAX of the manual on values, whatever the bits of a not-a-number."
  },
  {
   "property": "C124",
   "status": "proved",
   "theorems": [
    "Verif.A32.C124_decode",
    "Verif.A32.C124_comments",
    "Verif.A32.C124_line"
   ],
   "note": "All numbers in conversion_arm.s, math32_arm.s and demod_arm.s (util_arm.s and downsample_arm.s contain none) are decoded bit by bit; the decoder is shown to be exact for all numbers. Trusted: the table of formats."
  },
  {
   "property": "C125",
   "status": "partial",
   "theorems": [
    "Verif.A32.Conv.C125_Ui8toi16",
    "Verif.A32.Conv.C125_only",
    "Verif.A32.Conv.C125_all_partial",
    "Verif.A32.Conv.C125_violated",
    "Verif.A32.Conv.C125_Ui8toi16b"
   ],
   "note": "Partial because the statement is false for input across address 2^31 (C125_violated); C125_Ui8toi16 says exactly how many samples are converted for every address. Input and output must not overlap (C81 covers overlap on the structured model)."
  },
  {
   "property": "C126",
   "status": "partial",
   "theorems": [
    "Verif.A32.Conv.C126_Ui8tof32",
    "Verif.A32.Conv.C126_only",
    "Verif.A32.Conv.C126_all_partial",
    "Verif.A32.Conv.C126_violated",
    "Verif.A32.Conv.C126_Ui8toc64",
    "Verif.A32.Conv.C126_value"
   ],
   "note": "Partial because the statement is false for input across address 2^31 (C126_violated); C126_Ui8tof32 says exactly how many float32 are written, and by which unit, for every address. The output address must be a multiple of four, as Go makes it. Input and output must not overlap."
  },
  {
   "property": "C127",
   "status": "partial",
   "theorems": [
    "Verif.A32.Conv.C127_F32toi16",
    "Verif.A32.Conv.C127_only",
    "Verif.A32.Conv.C127_fpscr",
    "Verif.A32.Conv.C127_all_partial",
    "Verif.A32.Conv.C127_violated",
    "Verif.A32.Conv.C127_F32toi16ble",
    "Verif.A32.Conv.C127_sample",
    "Verif.A32.Conv.C127_value",
    "Verif.A32.Conv.C127_violated_overflow"
   ],
   "note": "Partial because the statement is false for input across address 2^31 (C127_violated); C127_F32toi16 says exactly how many samples are written for every address. FPSCR is the same afterwards when LEN and STRIDE were zero (C127_fpscr). Products outside the range of int32 become -1 or 0 (C127_violated_overflow), unlike on amd64 (C114). The input address must be a multiple of four, as Go makes it. Input and output must not overlap."
  },
  {
   "property": "C128",
   "status": "partial",
   "theorems": [
    "Verif.A32.Math.C128_VScaleF32",
    "Verif.A32.Math.C128_only",
    "Verif.A32.Math.C128_value_partial",
    "Verif.A32.Math.C128_rounded",
    "Verif.A32.Math.C128_violated"
   ],
   "note": "dsp/math32_arm.s:142-191 on the machine model of A32Model. Stores proved for any NEON and VFP multiplication; IEEE-754 values without NEON, and with NEON for numbers and products that are not denormal; false otherwise (C128_violated)."
  },
  {
   "property": "C129",
   "status": "partial",
   "theorems": [
    "Verif.A32.Math.C129_VMaxF32",
    "Verif.A32.Math.C129_max_partial",
    "Verif.A32.Math.C129_unique",
    "Verif.A32.Math.C129_violated_nan",
    "Verif.A32.Math.C129_violated_subnormal"
   ],
   "note": "dsp/math32_arm.s:271-352 on the machine model of A32Model; the run gives the result of the structured model of C83 for any comparison and maximum. The largest number without NEON or below 16 numbers, and with NEON without not-a-numbers and denormal numbers; false otherwise (C129_violated_nan, C129_violated_subnormal)."
  },
  {
   "property": "C130",
   "status": "partial",
   "theorems": [
    "Verif.A32.Math.C130_VAbsC64_partial",
    "Verif.A32.Math.C130_only_partial",
    "Verif.A32.Math.C130_violated",
    "Verif.A32.Math.C130_value",
    "Verif.A32.Math.C130_accuracy_partial"
   ],
   "note": "dsp/math32_arm.s:197-269 on the machine model of A32Model. Partial because with UseVector set the routine uses STRIDE = 01, which is reserved: proved where the unit takes it for a distance of two or vectors are not used; on a unit where it has no meaning the routine faults (C130_violated). The values are those of the portable code with IEEE-754 arithmetic (C130_value)."
  },
  {
   "property": "C131",
   "status": "partial",
   "theorems": [
    "Verif.Conv.C131_sqrt",
    "Verif.Conv.C131_nearest",
    "Verif.Conv.C131_abs_partial",
    "Verif.Conv.C131_vAbsC64_partial",
    "Verif.Conv.C131_special",
    "Verif.Conv.C131_violated_overflow",
    "Verif.Conv.C131_violated_underflow"
   ],
   "note": "dsp/math32.go:80-90 with binary32/binary64 arithmetic including a computable, correctly rounded square root (Fp/FpSqrt.lean). Rounding the root to float64 and then to float32 is the same as rounding once (C131_sqrt, C131_nearest). Error bound for sums of squares up to 1.7e38, with an absolute part of 7e-23; false beyond, where the squares overflow (C131_violated_overflow), and as a relative bound for very small numbers (C131_violated_underflow). Covers every way of fusing. NaN payloads are not modelled."
  },
  {
   "property": "C132",
   "status": "partial",
   "theorems": [
    "Verif.A32.Math.C132_FastAtan2",
    "Verif.A32.Math.C132_FastAtan2_2",
    "Verif.A32.Math.C132_only",
    "Verif.A32.Math.C132_portable_partial",
    "Verif.A32.Math.C132_portable2_partial",
    "Verif.A32.Math.C132_violated",
    "Verif.A32.Math.C132_accuracy_partial",
    "Verif.A32.Math.C132_accuracy2_partial"
   ],
   "note": "dsp/math32_arm.s:10-140 on the machine model of A32Model: for every floating-point unit the result is that of the structured model of C85 (C132_FastAtan2, C132_FastAtan2_2, C132_only). With IEEE-754 arithmetic equal to the portable code except in the cases of C85 (C132_portable_partial is an equivalence; C132_violated gives the diagonal and not-a-number cases), and accurate as in C89, FastAtan2_2 also on the diagonals. Partial because the equality with the portable code is false in those cases and the accuracy is missing where C89 misses it. NaN payloads are not modelled in the statements about values."
  },
  {
   "property": "C133",
   "status": "partial",
   "theorems": [
    "Verif.A32.Demod.C133_demodulate",
    "Verif.A32.Demod.C133_only",
    "Verif.A32.Demod.C133_portable_partial",
    "Verif.A32.Demod.C133_violated",
    "Verif.A32.Demod.C133_accuracy_partial"
   ],
   "note": "dsp/demod_arm.s:3-93 on the machine model of A32Model, for every floating-point unit: what is stored where, the filter, the result and the frame (C133_demodulate, C133_only). With IEEE-754 arithmetic memory and result are those of the portable code when no sample pair meets the exception of C85 (C133_portable_partial), and each output is within 0.01021 of the phase step under the magnitude conditions of C90 (C133_accuracy_partial). Partial because the equality is false in those cases and for an output shorter than the input (C133_violated: the portable code panics, the assembly returns more than it has used). The output must overlap neither the input nor the filter. NaN payloads are not modelled in the statements about values."
  },
  {
   "property": "C134",
   "status": "partial",
   "theorems": [
    "Verif.A32.Util.C134_rotate90",
    "Verif.A32.Util.C134_only",
    "Verif.A32.Util.C134_all_partial",
    "Verif.A32.Util.C134_violated",
    "Verif.A32.Util.C134_times",
    "Verif.A32.Util.C134_portable_partial",
    "Verif.A32.Util.C134_violated_length",
    "Verif.A32.Util.C134_i32",
    "Verif.A32.Util.C134_i32_partial",
    "Verif.A32.Util.C134_violated_i32",
    "Verif.A32.Util.C134_violated_outside"
   ],
   "note": "dsp/util_arm.s:3-87 on the machine model of A32Model: how many groups are turned for every address, what they become and that nothing else changes (C134_rotate90, C134_only, C134_i32). complex64: the samples are multiplied by i^n (C134_times) and are those of the portable code for lengths that are multiples of four (C134_portable_partial). Partial because the statement is false across address 2^31 (C134_violated), for other lengths, where the portable code panics (C134_violated_length), and for int32, where negated words are one less (C134_i32_partial is exact, C134_violated_i32) and a word after the slice is changed when the length is four more than a multiple of eight (C134_violated_outside). For such lengths C134_i32 does not cover a slice that ends within 16 bytes below address 2^31, where the loop does not stop at the end of the slice."
  },
  {
   "property": "C135",
   "status": "partial",
   "theorems": [
    "Verif.A32.Down.C135_complex",
    "Verif.A32.Down.C135_rational_partial",
    "Verif.A32.Down.C135_violated_rational",
    "Verif.A32.Down.C135_complex_calls",
    "Verif.A32.Down.C135_rational_calls_partial",
    "Verif.A32.Down.C135_complex_accuracy",
    "Verif.A32.Down.C135_rational_accuracy_partial"
   ],
   "note": "Every line of dsp/downsample_arm.s is run on the machine model of C124/C125. C135_complex: from any state, whatever the floating-point unit computes, the filter, the slice and the returned length are those of the portable model (C49) over the words in memory with the additions of the machine, and nothing else has changed; the counter must not be 2^31-1, which the filter never reaches. C135_rational_partial: the same for the rational filter; missing are slices across address 2^31 (C135_violated_rational: nothing is done and an empty slice returned for all samples and rates, which is not what the portable code does once there is enough for one output) and a vector length other than one. C135_complex_calls/C135_rational_calls_partial: any chain of calls between which nothing else is stored into the filter. C135_complex_accuracy/C135_rational_accuracy_partial: with IEEE-754 arithmetic the number of outputs and their distance from the exact sums, through C109."
  },
  {
   "property": "C136",
   "status": "partial",
   "theorems": [
    "Verif.Borip.C136_received_partial",
    "Verif.Borip.C136_recorder_partial",
    "Verif.Borip.C136_lost_partial",
    "Verif.Borip.C136_violated_lost",
    "Verif.Borip.C136_violated_large",
    "Verif.Borip.C136_violated_odd",
    "Verif.Borip.C136_violated_headerless"
   ],
   "note": "composition of the models of C65, C61 and C107; partial: buffers of whole samples that fit one packet; it fails in the configuration of the server, which asks for buffers of four packets and sends the first quarter four times (exact condition proved), for odd buffers, for readers without headers, and for losses of 65536 datagrams."
  },
  {
   "property": "C137",
   "status": "proved",
   "theorems": [
    "Verif.Cpu.Asm.C137_cpuid",
    "Verif.Cpu.Asm.C137_xgetbv",
    "Verif.Cpu.Asm.C137_x86",
    "Verif.Cpu.Asm.C137_x86_reports",
    "Verif.Cpu.Asm.C137_violated_fma",
    "Verif.Cpu.Asm.C137_mrs",
    "Verif.Cpu.Asm.C137_arm64",
    "Verif.Cpu.Asm.C137_freebsd",
    "Verif.Cpu.Asm.C137_stfle",
    "Verif.Cpu.Asm.C137_query",
    "Verif.Cpu.Asm.C137_s390x"
   ],
   "note": "Instruction-level model of the three assembly files of dsp/internal/cpu on the generic line machine; hardware is an arbitrary function. C137_cpuid, C137_xgetbv, C137_mrs, C137_stfle, C137_query: each routine returns the hardware's answer in its result bytes, changes nothing else, and faults exactly where the instruction is missing or not permitted. C137_x86, C137_arm64, C137_freebsd, C137_s390x: the Go detection with these calls never faults on hardware that announces truthfully and gives the variables of C70/C95; on s390x without STFLE it does not get past its first call. C137_x86_reports spells out every variable on x86; C137_violated_fma: HasFMA asks only for OSXSAVE, so it is set on systems that do not save the YMM registers (nothing in the repository looks at it)."
  },
  {
   "property": "C138",
   "status": "proved",
   "theorems": [
    "Verif.Ax25.Clock64.C138_bounded",
    "Verif.Ax25.Clock64.C138_idle",
    "Verif.Ax25.Clock64.C138_received"
   ],
   "note": "The main loop of examples/ax25.go from the value diff on, with binary64 arithmetic for all times and the rounded constants of the program (C88 has exact times in any ordered field). C138_bounded: for every input the inner loop ends after at most two turns, the decoder does not panic, the time is finite and within 1e-17 s of the exact bounds. C138_idle: number of 1 bits with a drift of at most 1e-17 s per window. C138_received: a whole transmission after any past. Proof: each sum has error at most 2^-60 s; the comparison with the bit length keeps the errors from adding up between tone changes."
  },
  {
   "property": "C139",
   "status": "proved",
   "theorems": [
    "Verif.Ax25.Ear.C139_deaf",
    "Verif.Ax25.Ear.C139_received"
   ],
   "note": "examples/ax25.go from the bytes of Read to the frames: buffer with stale bytes after short reads, 16-bit words, float32 samples, sliding block of 36 samples, two Goertzel detectors in binary64 (relational, with all fusions), diff in float32, then clock and decoder of C138. C139_received: hypotheses as in the statement; the specification (pcm, Afsk, Recorded) is in terms of bytes, phase and time only, and recordings that meet it exist for every frame (example). The two bins of a block with one change of tone at any of 37 places, any phase and any sub-sample position are bounded by rigorous ball arithmetic evaluated in the kernel (EarRows, on a grid of 80 sub-sample positions, lifted to all real ones by continuity). C139_deaf: by Bessel, both bins together are at most 18 times the energy of the block. Between 28 % and 81 % of full scale nothing is claimed. The sender must go on for one bit after the closing flag."
  },
  {
   "property": "C140",
   "status": "partial",
   "theorems": [
    "Verif.Dtmf.C140_violated_hum",
    "Verif.Dtmf.C140_dialled_partial",
    "Verif.Dtmf.C140_unfused"
   ],
   "note": "C140_dialled_partial: proved for every platform, with every operation rounded, and for reads that fill the buffer (what short reads do: C87_violated_short); the silence between presses is samples of zero. The last sentence of the statement is violated: C140_violated_hum, a constant other than zero, even the smallest sample, is printed as the key 4, because the threshold is compared with zero only. C140_unfused: the program that fuses nothing is one of those covered. Assumed: math.Cos and math.Sin within 2^-50 on the arguments used. The live program: C151."
  },
  {
   "property": "C141",
   "status": "partial",
   "theorems": [
    "Verif.Angle.C141_fast_partial",
    "Verif.Angle.C141_fast2_partial",
    "Verif.Angle.C141_violated_nan",
    "Verif.Angle.C141_fast2_iff",
    "Verif.Demod.C141_demodulate_partial",
    "Verif.Demod.C141_first",
    "Verif.Demod.C141_differs",
    "Verif.Filt.C141_iir_partial",
    "Verif.Filt.C141_biquad_partial",
    "Verif.Filt.C141_f32_partial"
   ],
   "note": "The bounds of C89, C90 and C92 for every choice of fused products; C91 and C93 are stated for every choice themselves. Partial because the ranges of C89, C90 and C92 are needed. C141_first: the first output of a new demodulator is 0 whatever is fused. C141_differs: two samples for which the output differs between fused and unfused code."
  },
  {
   "property": "C142",
   "status": "partial",
   "theorems": [
    "Verif.Demod.C142_polar_partial",
    "Verif.Demod.C142_half_turns_partial",
    "Verif.Demod.C142_violated_small",
    "Verif.Demod.C142_violated_large"
   ],
   "note": "However the complex product is compiled. math.Atan2 is not modelled: its error is a parameter of the theorems. Beyond the stated magnitudes it fails: C142_violated_small (the product underflows, and different steps give one angle), C142_violated_large (the parts overflow to NaN and infinity); a result may be off by a whole turn when the step is within 1e-15 of half a turn."
  },
  {
   "property": "C143",
   "status": "proved",
   "theorems": [
    "Verif.Filt.C143_sqrt",
    "Verif.Filt.C143_low_shelf",
    "Verif.Filt.C143_high_shelf",
    "Verif.Filt.C143_peaking"
   ],
   "note": "C143_sqrt shows that the rounded square root of IEEE-754 meets the assumption made in C108. Sine, cosine and power remain parameters with assumed errors."
  },
  {
   "property": "C144",
   "status": "proved",
   "theorems": [
    "Verif.Filt.C144_run",
    "Verif.Filt.C144_low_pass",
    "Verif.Filt.C144_high_pass",
    "Verif.Filt.C144_band_pass_skirt",
    "Verif.Filt.C144_band_pass_peak",
    "Verif.Filt.C144_notch",
    "Verif.Filt.C144_all_pass",
    "Verif.Filt.C144_peaking",
    "Verif.Filt.C144_low_shelf",
    "Verif.Filt.C144_high_shelf",
    "Verif.Filt.C144_f32",
    "Verif.Filt.C144_low_pass_f32"
   ],
   "note": "Combines C108 and C143 (coefficients), C141 (running with any fusing) and the sensitivity of the recurrence to its coefficients; C144_run is the general statement for coefficients near any stable exact design. C144_f32: the same for FilterF32, up to half a unit in the last place of float32. Sine, cosine and power are parameters with assumed errors."
  },
  {
   "property": "C145",
   "status": "proved",
   "theorems": [
    "Verif.Cpu.C145_same",
    "Verif.Cpu.C145_printed",
    "Verif.Cpu.C145_field_unique",
    "Verif.Cpu.C145_option_unique",
    "Verif.Cpu.C145_silent"
   ],
   "note": "Proved for every string and table: the printed text is the lines of the fields in order followed by the lines of the options in order, the line of each determined by a specification on the text of the fields; the features computed are those of C69. Shown on an example: on a processor without a required feature, cpu.all=off reports that the feature can not be enabled though nobody asked for it."
  },
  {
   "property": "C146",
   "status": "partial",
   "theorems": [
    "Verif.Borip.C146_server",
    "Verif.Borip.C146_streaming_partial",
    "Verif.Borip.C146_destination_partial",
    "Verif.Borip.C146_stopped_partial",
    "Verif.Borip.C146_violated_running",
    "Verif.Borip.C146_violated_sockets"
   ],
   "note": "Proved for every execution: streaming exactly while the callback is called (C146_streaming_partial), destination fixed by the acknowledged GO (C146_destination_partial), at most the buffer in work after an answered STOP (C146_stopped_partial); the model refines that of C66 and C67 (C146_server). Violated: a GO between an acknowledged STOP and the next callback is answered with RUNNING and nothing follows, in every such state (C146_violated_running); no socket of a stream is ever closed, so any number can be left open when all clients have gone (C146_violated_sockets; the garbage collector is not modelled)."
  },
  {
   "property": "C147",
   "status": "partial",
   "theorems": [
    "Verif.Borip.C147_channel",
    "Verif.Borip.C147_channel_safe",
    "Verif.Borip.C147_channel_panics",
    "Verif.Borip.C147_violated_stop",
    "Verif.Borip.C147_chunks",
    "Verif.Borip.C147_lines_partial",
    "Verif.Borip.C147_violated_long",
    "Verif.Borip.C147_one_reply",
    "Verif.Borip.C147_delivered",
    "Verif.Borip.C147_broken"
   ],
   "note": "Of package bufio ReadSlice and fill are modelled. C147_chunks: replies, state and the error that ends the loop depend on the bytes only, for all inputs; C147_lines_partial: the lines under 4096 bytes are served in order, an incomplete last line is not; C147_one_reply: one reply line unless blank. Violated: a line of 4096 bytes or more ends the connection and leaves it and everything after it unanswered (C147_violated_long). Errors of the writer (serveW): C147_delivered, as long as the connection takes the replies nothing changes; C147_broken, a connection that takes only w bytes gets the first w bytes of the replies, and the loop ends with the state after the first line whose reply does not fit. With the channel that ends a stream (serveC): C147_channel, up to a panic the loop is the same; C147_channel_safe, no panic if the stream has ended between two lines that stop it; C147_channel_panics, the converse; violated: STOP twice before a callback panics (C147_violated_stop). Between two lines a stream can end at any time (field ended of Rtl)."
  },
  {
   "property": "C148",
   "status": "partial",
   "theorems": [
    "Verif.Conv.C148_unique",
    "Verif.Conv.C148_vMulC64xF32",
    "Verif.Conv.C148_vAddF32",
    "Verif.Conv.C148_vAddC64",
    "Verif.Conv.C148_vscaleF32",
    "Verif.Conv.C148_vScaleC64_partial",
    "Verif.Conv.C148_vMulC64",
    "Verif.Conv.C148_vMulC64_error",
    "Verif.Conv.C148_violated_single"
   ],
   "note": "Memory models of C19 over IEEE-754 arithmetic; VMulC64 also for any product made in float64. VScaleC64 only for one to 2^25 elements, as it panics otherwise (C19). C148_violated_single: with every operation rounded to float32 (the model of C19), cancellation can lose a part entirely."
  },
  {
   "property": "C149",
   "status": "partial",
   "theorems": [
    "Verif.Borip.C149_ahead",
    "Verif.Borip.C149_channel_partial",
    "Verif.Borip.C149_close_partial",
    "Verif.Borip.C149_unsent",
    "Verif.Borip.C149_session_partial",
    "Verif.Borip.C149_progress",
    "Verif.Borip.C149_broken",
    "Verif.Borip.C149_violated_long",
    "Verif.Borip.C149_violated_newline"
   ],
   "note": "C149_session_partial holds for calls with printable words whose requests fit the server's buffer (at most 4096 bytes). The full statement fails: a request of 4097 bytes or more ends the connection (C149_violated_long), and a newline in an argument shifts the answers of all later calls (C149_violated_newline). C149_progress: the replies the client waits for have been sent; C149_broken: the connection breaks at any byte. C149_channel_partial: the same with the channel that ends a stream, if the stream has ended between two calls that stop it (else the server panics, C147_violated_stop). C149_close_partial: the same for a session that ends with Close, which makes the calls partings. C149_unsent: errors of writing, at any byte of the requests. C149_ahead: errors of the writer of the server, at any byte of the replies; the server has then carried out exactly one call more than the client knows of."
  },
  {
   "property": "C150",
   "status": "partial",
   "theorems": [
    "Verif.Borip.C150_no_race_partial",
    "Verif.Borip.C150_violated_always",
    "Verif.Borip.C150_where_partial",
    "Verif.Borip.C150_violated"
   ],
   "note": "Proved for every execution and every variable but closeChan (C150_no_race_partial): the map of devices, inUse and rtlDev of the devices (rtlDev is also read outside the mutex), dev and dest of a client, and the variables of a stream. A race is always on the closeChan of a connection between its goroutine and one of its streams or between two of its streams (C150_where_partial). Violated for closeChan: in every execution each access by the connection after a stream has ended races with the write that ended it (C150_violated_always), and so in an ordinary session (C150_violated)."
  },
  {
   "property": "C151",
   "status": "proved",
   "theorems": [
    "Verif.Dtmf.Live.C151_hum",
    "Verif.Dtmf.Live.C151_dialled",
    "Verif.Dtmf.Live.C151_unfused"
   ],
   "note": "C151_dialled: every platform, every operation rounded, any way of fusing; the silence between presses is samples of zero, as in C140; C151_hum: that is needed, a constant from 2^-40 on in 15 blocks is printed as the key 4, as in C140_violated_hum. C151_unfused: the program that fuses nothing does not panic on any sound, makes the turns of C87, and is one of those covered. dialled_exists: sounds that meet the hypotheses exist for all presses far enough apart. Assumed: math.Cos and math.Sin within 2^-50 on the arguments used; of portaudio only that Read fills the buffer or returns an error."
  },
  {
   "property": "C152",
   "status": "partial",
   "theorems": [
    "Verif.Link.Build.C152_cpu_names_partial",
    "Verif.Link.Build.C152_cpu_bodies_partial",
    "Verif.Link.Build.C152_dsp_partial",
    "Verif.Link.Build.C152_violated",
    "Verif.Link.Build.C152_notations",
    "Verif.Link.Build.C152_tables"
   ],
   "note": "The statement is violated (C152_violated): package internal/cpu declares no doinit for architectures beyond its thirteen (for example loong64) and no osinit for ppc64 except with Linux, Android and AIX; getsysctlbyname (macOS/arm64) and getsystemcfg (AIX) have neither a body nor assembly; package dsp declares Ui8tof32 twice on Windows, and off amd64 some of its functions have neither. The partial theorems say for every target exactly whether the names fit (C152_cpu_names_partial, C152_dsp_partial) and whether the bodies are there (C152_cpu_bodies_partial, C152_dsp_partial). C152_notations: the two notations agree. C152_tables: the tables of C94 are those of the files chosen. A function that no program reaches is dropped by the linker, so that missing bodies show only where they are reached; on architectures without any assembly file the compiler rejects them at once."
  },
  {
   "property": "C153",
   "status": "partial",
   "theorems": [
    "Verif.Borip.C153_violated_device",
    "Verif.Borip.C153_stopped_partial",
    "Verif.Borip.C153_answered_partial",
    "Verif.Borip.C153_violated_panic"
   ],
   "note": "C153_stopped_partial: unless the server panics, no stream is left that has not been told to stop; the client knows of every stream that has not been told to stop (chan_known). C153_answered_partial: if the stream has ended between any two calls that stop streams, those of Close included, the server answers everything without a panic. Violated: Close never asks for the device to be given back, since the client cannot read the reply to SelectDevice (C153_violated_device, names of devices without bars); and Close makes the server panic when the stream was stopped by SelectDevice and has not ended yet (C153_violated_panic, a concrete session). The server gives the device back when the connection ends (C66_released)."
  },
  {
   "property": "C154",
   "status": "partial",
   "theorems": [
    "Verif.Ax25.Ear.C154_heard",
    "Verif.Ax25.C154_printed_partial",
    "Verif.Ax25.C154_blanks",
    "Verif.Ax25.C154_received_partial",
    "Verif.Ax25.C154_violated",
    "Verif.Ax25.C154_violated_newline"
   ],
   "note": "Without the flag -v. C154_printed_partial: for all lists of frames whose call signs contain no blanks, no newlines and, in those of repeaters, no commas. C154_blanks: frames that the decoder returns never have blanks in call signs, so C154_received_partial needs only the absence of newlines and commas. Violated (C154_violated): two transmissions, both accepted from any state of the decoder, with the repeater \"A-1,B\" numbered 2 and with the repeaters A numbered 1 and B numbered 2, are printed alike. Newlines in call signs do the same without repeaters (C154_violated_newline), so that none of the conditions can be dropped. hex.Dump is written out from package encoding/hex. C154_heard: a recording that meets the conditions of C139 makes the program print the addresses and the information that were sent, and nothing else since the second opening flag."
  },
  {
   "property": "C155",
   "status": "proved",
   "theorems": [
    "Verif.Ax25.Stretch.C155_rounded",
    "Verif.Ax25.Stretch.C155_places",
    "Verif.Ax25.Stretch.C155_one",
    "Verif.Ax25.Stretch.C155_line"
   ],
   "note": "The factor, a constant 1 in the program, is any number from 1 on. C155_places: any arithmetic, rounded ones included. C155_line: exact arithmetic (any field of characteristic zero). C155_one: with the factor 1 this is the reading that C139 models. C155_rounded: in single precision, with samples of magnitude at most 1 and factors up to 2^20, the j-th sample of a group is within 7e-8*j + 3e-7 of the line."
  }
 ]
}
