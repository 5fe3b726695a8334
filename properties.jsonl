{"id": "C01", "title": "Frame check sequence is CRC-16/X.25", "statement": "The frame check used by the AX.25 decoder is the standard bit-serial CRC-16/X.25: processing a byte string through the lookup table leaves the same 16-bit register as shifting the bits in one at a time, least significant first, with the reflected polynomial 0x8408, for every starting register.", "quantifier": "every byte string of every length, every starting register", "why_tests_cant": "There are unboundedly many byte strings; tests only check a few recorded packets.", "anchors": ["dsp/ax25/crc.go: checkCrcCcitt, crcCcittTable"]}
{"id": "C02", "title": "A frame is accepted exactly when its last two bytes are its FCS", "statement": "For every payload, appending the complemented CRC (low byte first) makes the frame check succeed, and for a given payload no other pair of trailing bytes does.", "quantifier": "every payload of every length, every pair of trailing bytes", "why_tests_cant": "Requires all payloads and all 65536 trailers for each of them.", "anchors": ["dsp/ax25/crc.go: checkCrcCcitt"]}
{"id": "C03", "title": "The frame check detects burst, odd-weight and two-bit errors", "statement": "If a frame passes the check and is then corrupted by a single bit flip, by any error burst of at most 16 consecutive bits, by any odd number of bit flips, or by two bit flips less than 32767 bit positions apart, the corrupted frame fails the check.", "quantifier": "every valid frame of every length, every error pattern of the listed kinds at every position", "why_tests_cant": "The set of frames and error patterns is infinite; sampling cannot establish detection.", "anchors": ["dsp/ax25/crc.go: checkCrcCcitt"]}
{"id": "C04", "title": "HDLC decode inverts HDLC encode from any decoder state", "statement": "Whatever bits the decoder saw before, if it is then fed a flag, the bit-stuffed bits (LSB first) of a byte string of at most 512 bytes, and a closing flag, then the call delivering the last bit of the closing flag processes exactly that byte string as a frame, and every earlier call after the opening flag returns no frame.", "quantifier": "every prior bit history (hence every reachable decoder state) and every byte string of length at most 512", "why_tests_cant": "Decoder states times payloads is unbounded, and bit-stuffing errors show up only for particular runs of ones straddling byte boundaries.", "anchors": ["dsp/ax25/hdlc.go: AX25.Feed"]}
{"id": "C05", "title": "A back-to-back sequence of frames is decoded in order", "statement": "For any list of byte strings (each at most 512 bytes) transmitted as flag, stuffed frame, flag, stuffed frame, ..., flag with a single shared flag between frames, the decoder processes exactly these byte strings, in order, each on the last bit of its closing flag, and nothing else.", "quantifier": "every list of frames of any length, every prior bit history", "why_tests_cant": "Quantifies over unbounded transmission histories.", "anchors": ["dsp/ax25/hdlc.go: AX25.Feed"]}
{"id": "C06", "title": "No frame is reported unless a valid check sequence was received between two flags", "statement": "Whenever feeding a bit returns a frame, the bit stream fed so far ends with a flag, a suitable earlier flag exists, and the destuffed bytes in between pass the frame check and number at least ten and at most 512.", "quantifier": "every bit history", "why_tests_cant": "Soundness over all bit histories cannot be sampled.", "anchors": ["dsp/ax25/hdlc.go: AX25.Feed, AX25.processFrame"]}
{"id": "C07", "title": "The decoder never panics and its buffer is bounded", "statement": "Feeding any sequence of values never causes an index-out-of-range panic, and the receive buffer never exceeds 512 bytes.", "quantifier": "every sequence of integers passed to Feed, starting from a new decoder", "why_tests_cant": "An adversarial radio channel produces arbitrary histories; tests use recorded packets.", "anchors": ["dsp/ax25/hdlc.go: AX25.Feed, AX25.processFrame, parseAddress, NewDecoder"]}
{"id": "C08", "title": "Abort sequence discards the frame in progress", "statement": "After seven or more consecutive one bits, no frame is reported until a new flag has been received, whatever was fed before and is fed in between.", "quantifier": "every history, every continuation without a flag", "why_tests_cant": "Universally quantified over histories and continuations.", "anchors": ["dsp/ax25/hdlc.go: AX25.Feed"]}
{"id": "C09", "title": "Oversized frames are dropped and the decoder resynchronises", "statement": "If more than 512 bytes arrive between two flags, no frame is reported for them at the closing flag, and the next well-formed frame is decoded normally.", "quantifier": "every oversize content, every following frame", "why_tests_cant": "Requires arbitrary contents longer than any fixture.", "anchors": ["dsp/ax25/hdlc.go: AX25.Feed, NewDecoder (maxBufferSize)"]}
{"id": "C10", "title": "AX.25 address field round-trip", "statement": "For a frame built with the standard AX.25 header (destination, source, up to any number of repeaters, each call sign of at most six characters without blanks, shifted left and blank padded, SSID octets, extension bit on the last address), a control octet and an information field, the decoder returns the same call signs, SSIDs, repeaters in order, and information bytes.", "quantifier": "every call sign list, every SSID, every control octet kind and payload that fits in 512 bytes", "why_tests_cant": "Combinatorially many headers; tests cover a handful.", "anchors": ["dsp/ax25/hdlc.go: AX25.processFrame, parseAddress"]}
{"id": "C11", "title": "Control field classification is total and exclusive", "statement": "Every control octet is classified as exactly one of information, supervisory or unnumbered according to its two low bits, and the sequence numbers and poll/final bit are the corresponding bit fields, matching the encoding of the AX.25 specification.", "quantifier": "every control octet and every frame containing it", "why_tests_cant": "Needs all octets in all frame contexts, and that no other byte of the frame influences the classification.", "anchors": ["dsp/ax25/hdlc.go: AX25.processFrame", "dsp/ax25/constants.go"]}
{"id": "C12", "title": "A returned frame is not changed by feeding further bits", "statement": "The Info bytes of a frame returned by the decoder keep their value for as long as the caller holds the frame, whatever bits are fed afterwards.", "quantifier": "every frame ever returned and every continuation of the bit stream", "why_tests_cant": "Aliasing appears only for particular continuations; tests look at the frame immediately.", "anchors": ["dsp/ax25/hdlc.go: AX25.processFrame (frame.Info), AX25.Feed"]}
{"id": "C13", "title": "FlexNet compressed header decodes six-bit call sign characters", "statement": "For every call sign of six characters in the range 0x20..0x5f packed as six-bit codes into a FlexNet header, the decoder returns that call sign.", "quantifier": "every packed call sign", "why_tests_cant": "64^6 call signs; there is no fixture for FlexNet at all.", "anchors": ["dsp/ax25/hdlc.go: AX25.processFrame lines 76-100"]}
{"id": "C14", "title": "Unsigned 8-bit to signed 16-bit conversion is monotone and full-scale", "statement": "Ui8toi16 maps each sample v to the 16-bit word whose two bytes both equal v-128 (mod 256); this map is strictly increasing, sends 128 to 0, 0 to -32640 and 255 to 32639, and Ui8toi16b writes exactly the little-endian bytes of the same words.", "quantifier": "every input sequence and every output length", "why_tests_cant": "Needs every byte value at every position and length.", "anchors": ["dsp/conversion.go: ui8toi16, ui8toi16b"]}
{"id": "C15", "title": "Little-endian 16-bit encode/decode round trip", "statement": "Writing 16-bit samples as little-endian bytes and reading them back as 16-bit integers gives the original samples for every sample sequence; the byte written second is the high byte.", "quantifier": "every sequence of 16-bit samples", "why_tests_cant": "Infinite sequences of arbitrary values; fixed tests sample a few.", "anchors": ["dsp/conversion.go: i16ToBLE, i16bleToF64, i16bleToF32"]}
{"id": "C16", "title": "16-bit samples survive the trip through float32", "statement": "Converting little-endian 16-bit samples to float32 with scale 2^-k and back with scale 2^k (0 <= k <= 15) reproduces the bytes exactly under IEEE-754 binary32 round-to-nearest-even arithmetic.", "quantifier": "every 16-bit sample, every such k, every sequence length", "why_tests_cant": "Rounding behaviour must be exact for every value and scale.", "anchors": ["dsp/conversion.go: i16bleToF32, F32toi16ble, f32toi16"]}
{"id": "C17", "title": "float32 serialisation round trip", "statement": "F32Tof32ble writes the four little-endian bytes of each IEEE-754 bit pattern, so that reassembling them yields the same bit pattern, including NaN payloads, infinities and signed zeros.", "quantifier": "every 32-bit pattern and every sequence", "why_tests_cant": "2^32 patterns per element.", "anchors": ["dsp/conversion.go: F32Tof32ble"]}
{"id": "C18", "title": "Signed 8-bit complex samples round trip", "statement": "Converting interleaved signed 8-bit I/Q samples to complex64 and back with C64toi8 reproduces the bytes, for every even-length sequence.", "quantifier": "every sequence of int8 pairs", "why_tests_cant": "All values in all positions, all lengths.", "anchors": ["dsp/conversion.go: I8toc64, C64toi8, i8tof32"]}
{"id": "C19", "title": "Conversions touch exactly the common prefix of their output", "statement": "Every portable element-wise conversion and vector routine computes output element i from input element i for all i below the smaller of the two lengths (with the element-size ratio), leaves every other output element unchanged, and does not panic on any lengths including zero.", "quantifier": "every input, every output length including empty slices", "why_tests_cant": "All length combinations including zero; tests use equal lengths.", "anchors": ["dsp/conversion.go", "dsp/math32.go: vAbsC64, VAddF32, VAddC64, vMulC64xF32, VMulC64, vscaleF32, VScaleC64"]}
{"id": "C20", "title": "amd64 Ui8tof32 stays within its slices and agrees with the portable code", "statement": "On amd64 the assembly routine converting unsigned 8-bit samples to float32 reads only the first n input bytes and writes only the first n outputs (n the smaller length), and produces the portable result, for every length and every alignment of the output slice.", "quantifier": "every length, every output address alignment, every CPU feature setting", "why_tests_cant": "Memory overruns occur only for particular length/alignment combinations; the tests use one of each.", "anchors": ["dsp/conversion_avo_amd64.s: Ui8tof32", "dsp/conversion_amd64.s: Ui8toc64"]}
{"id": "C21", "title": "amd64 I8tof32 stays within its slices and agrees with the portable code", "statement": "On amd64 the assembly routine converting signed 8-bit samples to float32 reads only the first n input bytes and writes only the first n outputs (n the smaller length), and produces the portable result, for every length and every alignment of the output slice.", "quantifier": "every length, every output address alignment, every CPU feature setting", "why_tests_cant": "Same as C20: length/alignment combinations.", "anchors": ["dsp/conversion_amd64.s: I8tof32"]}
{"id": "C22", "title": "amd64 Ui8toi16 and Ui8toi16b agree with the portable code", "statement": "On amd64 the assembly routines converting unsigned 8-bit samples to 16-bit samples write, for every length and every alignment, exactly the portable result on the common prefix and nothing outside it.", "quantifier": "every length and every output address alignment", "why_tests_cant": "Head, unrolled body and tail interact differently for each length and alignment.", "anchors": ["dsp/conversion_amd64.s: Ui8toi16, Ui8toi16b"]}
{"id": "C23", "title": "amd64 I16bleToF64 and I16bleToF32 agree with the portable code", "statement": "On amd64 the assembly routines converting little-endian 16-bit samples to float write, for every length and every CPU feature setting, exactly the portable result on the common prefix and nothing outside it.", "quantifier": "every length, every CPU feature setting", "why_tests_cant": "Unrolled body and tail for every length.", "anchors": ["dsp/conversion_amd64.s: I16bleToF64, I16bleToF32"]}
{"id": "C24", "title": "amd64 float32 to int16 conversion does not depend on position", "statement": "On amd64 F32toi16 and F32toi16ble give each element a result that depends only on that element and the scale, not on its index or the slice length.", "quantifier": "every input value including values outside the 16-bit range, every index, every length", "why_tests_cant": "Depends on value and index jointly; tests only use in-range values.", "anchors": ["dsp/conversion_amd64.s: F32toi16, F32toi16ble"]}
{"id": "C25", "title": "amd64 VScaleF32 scales every element", "statement": "On amd64 VScaleF32 stores input[i]*scale in output[i] for every i below the smaller length and touches nothing else, for every length and every CPU feature setting.", "quantifier": "every length, every CPU feature setting", "why_tests_cant": "The test uses only lengths 256 and 257.", "anchors": ["dsp/math32_amd64.s: VScaleF32"]}
{"id": "C26", "title": "amd64 VMaxF32 and VMinF32 return the extreme element", "statement": "On amd64 VMaxF32 (VMinF32) returns the largest (smallest) element of the slice for every length and CPU feature setting, agreeing with the portable code for every input, with NaN elements ignored.", "quantifier": "every input of every length including NaN, every CPU feature setting", "why_tests_cant": "All lengths and lane assignments, NaN in any lane.", "anchors": ["dsp/math32_amd64.s: VMaxF32, VMinF32", "dsp/math32.go: vMaxF32, vMinF32"]}
{"id": "C27", "title": "Portable VMax and VMin are the extremum of the non-NaN elements", "statement": "The portable maximum (minimum) of a slice is one of its elements or the documented initial value for an empty slice, is at least (at most) every non-NaN element, and does not depend on the order of the elements.", "quantifier": "every slice, every permutation, NaN included", "why_tests_cant": "All permutations and NaN placements.", "anchors": ["dsp/math32.go: vMaxF32, vMinF32"]}
{"id": "C28", "title": "Vector routines are safe in place", "statement": "Element-wise vector routines give the same result when the output slice is the input slice itself as when it is a separate slice.", "quantifier": "every input of every length", "why_tests_cant": "Aliasing for all lengths.", "anchors": ["dsp/math32.go", "dsp/conversion.go", "dsp/util.go"]}
{"id": "C29", "title": "FastAtan2Fixed panics on no input and stays within half a turn", "statement": "FastAtan2Fixed returns a value in [-2^14, 2^14] for every pair of machine integers and never panics.", "quantifier": "every pair of 64-bit integers", "why_tests_cant": "2^128 input pairs; wrap-around occurs only at extremes.", "anchors": ["dsp/mathfixed.go: FastAtan2Fixed"]}
{"id": "C30", "title": "FastAtan2Fixed is odd in y", "statement": "Negating y negates the result of FastAtan2Fixed, except on the negative x axis and origin where the result does not depend on sign of zero.", "quantifier": "every pair of integers away from overflow", "why_tests_cant": "All pairs.", "anchors": ["dsp/mathfixed.go: FastAtan2Fixed"]}
{"id": "C31", "title": "FastAtan2Fixed approximates the true angle", "statement": "For all integer pairs that are not both zero and for which the products fit in 64 bits, the result of FastAtan2Fixed times pi/2^14 is within 0.08 radian of the true angle of the point (x, y).", "quantifier": "every pair of integers with |x|+|y| below 2^51", "why_tests_cant": "The bound must hold for every direction and magnitude.", "anchors": ["dsp/mathfixed.go: FastAtan2Fixed"]}
{"id": "C32", "title": "Atan2LUT panics on no input and approximates the true angle", "statement": "Atan2LUT never panics, returns a value in [-2^14, 2^14], and for coordinates whose magnitude is below 2^54 the result times pi/2^14 is within 0.005 radian of the true angle.", "quantifier": "every pair of 64-bit integers", "why_tests_cant": "All pairs; the failing pairs are isolated.", "anchors": ["dsp/mathfixed.go: Atan2LUT, lut init"]}
{"id": "C33", "title": "FastAtan2 approximates the true angle", "statement": "In exact arithmetic the approximation FastAtan2 is within its documented bound of 0.01 radian of the true angle for every point other than the origin.", "quantifier": "every pair of real numbers", "why_tests_cant": "Continuous domain; the tests sample a grid with a looser tolerance than documented.", "anchors": ["dsp/math32.go: fastAtan2, FastAtan2"]}
{"id": "C34", "title": "FastAtan2_2 approximates the true angle", "statement": "In exact arithmetic FastAtan2_2 is within 0.005 radian of the true angle for every point other than the origin.", "quantifier": "every pair of real numbers", "why_tests_cant": "Continuous domain.", "anchors": ["dsp/math32.go: fastAtan2_2, FastAtan2_2"]}
{"id": "C35", "title": "Angle approximations stay within [-pi, pi]", "statement": "FastAtan2 and FastAtan2_2 never return a value outside [-pi, pi], as documented for the polar discriminator.", "quantifier": "every pair of real numbers", "why_tests_cant": "Continuous domain, violation is of order 1e-6.", "anchors": ["dsp/math32.go: fastAtan2, fastAtan2_2", "dsp/demod.go: PolarDiscriminator32"]}
{"id": "C36", "title": "IIR filter computes its difference equation", "statement": "After constructing a filter from numerator b and denominator a of equal length at least two with a[0] nonzero, output n equals (sum_k b[k] x[n-k] - sum_{k>=1} a[k] y[n-k]) / a[0] with zero initial conditions, for every input.", "quantifier": "every coefficient vector pair, every input sequence, every n", "why_tests_cant": "All orders and all inputs.", "anchors": ["dsp/filter.go: NewIIRFilter, IIRFilter.Filter"]}
{"id": "C37", "title": "IIR filter output does not depend on how the stream is cut into calls", "statement": "Filtering a stream in any sequence of consecutive chunks, including empty ones, gives the same samples, bit for bit, as filtering it in one call, also when filtering in place.", "quantifier": "every filter, every input, every way to cut it", "why_tests_cant": "Exponentially many ways to cut.", "anchors": ["dsp/filter.go: IIRFilter.Filter"]}
{"id": "C38", "title": "Constructing an IIR filter does not modify its arguments", "statement": "The coefficient slices passed to NewIIRFilter are unchanged, so constructing a second filter from the same slices yields an identical filter.", "quantifier": "every pair of coefficient slices", "why_tests_cant": "Tests construct once from literals.", "anchors": ["dsp/filter.go: NewIIRFilter"]}
{"id": "C39", "title": "IIR filter accepts every coefficient vector its constructor accepts", "statement": "If NewIIRFilter returns without panicking, then filtering any input into an output at least as long does not panic.", "quantifier": "every coefficient length, every input", "why_tests_cant": "The failing order is never constructed in tests.", "anchors": ["dsp/filter.go: NewIIRFilter, IIRFilter.Filter"]}
{"id": "C40", "title": "DC filter: block and single-sample interfaces agree and DC decays", "statement": "Filtering a block gives the same outputs, bit for bit, as feeding the samples one at a time, for every way to mix the two; and in exact arithmetic a constant input c from rest produces the output c*a^n, which tends to zero when |a| < 1.", "quantifier": "every input, every interleaving of the two calls, every pole position", "why_tests_cant": "All call interleavings and all inputs.", "anchors": ["dsp/filter.go: DCFilter.Filter, DCFilter.FilterOne"]}
{"id": "C41", "title": "Biquad computes its difference equation independent of chunking", "statement": "Output n of a biquad equals (b0 x[n] + b1 x[n-1] + b2 x[n-2] - a1 y[n-1] - a2 y[n-2]) with normalised coefficients, and the output does not depend, bit for bit, on how the input is cut into calls.", "quantifier": "every coefficient set, every input, every way to cut it", "why_tests_cant": "All inputs and cuts.", "anchors": ["dsp/biquad.go: BiQuadFilter.Filter, BiQuadFilter.FilterF32"]}
{"id": "C42", "title": "Every designed biquad is stable", "statement": "For every centre frequency strictly between 0 and half the sample rate and every positive quality factor (and every gain), the designed low-pass, high-pass, band-pass, notch, all-pass, peaking and shelving filters have both poles strictly inside the unit circle, so every bounded input gives a bounded output.", "quantifier": "every admissible design parameter, every bounded input", "why_tests_cant": "Continuous parameter space.", "anchors": ["dsp/biquad.go: NewLowPassBiQuadFilter and the other constructors"]}
{"id": "C43", "title": "Biquad designs have the advertised frequency response", "statement": "In the steady state the low-pass design has gain 1 at zero frequency and 0 at half the sample rate, the high-pass design the reverse, the band-pass and notch designs have gain 0 and 1 as advertised at centre and band edges, the all-pass design has gain 1 at every frequency, and peaking and shelving designs have the requested gain in dB.", "quantifier": "every admissible design parameter, every frequency", "why_tests_cant": "Continuous parameter space, asymptotic behaviour.", "anchors": ["dsp/biquad.go constructors"]}
{"id": "C44", "title": "Linear filters obey superposition and time invariance", "statement": "In exact arithmetic the biquad, IIR and DC filters started from rest are linear in their input, and delaying the input by prepending zeros delays the output by the same amount.", "quantifier": "every pair of inputs, every scalar, every delay", "why_tests_cant": "All inputs.", "anchors": ["dsp/filter.go", "dsp/biquad.go"]}
{"id": "C45", "title": "Goertzel computes the DFT bin", "statement": "In exact arithmetic, after feeding exactly one block of samples to a fresh detector for frequency f, the complex result equals the DFT sum at that frequency whenever the block holds a whole number of cycles, and differs only by a unit-modulus phase factor otherwise; the magnitude result equals its squared modulus.", "quantifier": "every sample block of every length, every frequency", "why_tests_cant": "All inputs and frequencies.", "anchors": ["dsp/goertzel.go: Goertzel.Feed, Goertzel.Complex, Goertzel.Magnitude, ComplexGoertzel"]}
{"id": "C46", "title": "Goertzel detectors accumulate independent of chunking and reset completely", "statement": "Feeding samples in any sequence of chunks leaves the detector in the same state, bit for bit, as feeding them at once; after Reset the detector behaves like a new one; each frequency is tracked independently of the others.", "quantifier": "every sequence of Feed and Reset calls", "why_tests_cant": "All histories.", "anchors": ["dsp/goertzel.go"]}
{"id": "C47", "title": "Sliding DFT equals the DFT of the most recent n samples", "statement": "In exact arithmetic, after any number of samples have been pushed, the sliding DFT without window returns the selected bin of the n-point DFT of the last n samples (zeros before the start).", "quantifier": "every sample history, every window size and bin", "why_tests_cant": "All histories; drift would only show after long runs.", "anchors": ["dsp/sdft.go: NewSDFT, SDFT.Filter"]}
{"id": "C48", "title": "Sliding DFT frequency-domain windowing equals time-domain windowing", "statement": "In exact arithmetic, the sliding DFT with the Hanning, Hamming or Blackman frequency coefficients returns the selected bin of the DFT of the last n samples multiplied by the corresponding periodic window.", "quantifier": "every sample history, every window size and bin including bins at the wrap-around", "why_tests_cant": "All histories, wrap-around bins.", "anchors": ["dsp/sdft.go", "dsp/window.go: frequency coefficients"]}
{"id": "C49", "title": "Low-pass decimation: sample count, values and chunk independence", "statement": "For a decimation factor D >= 1, after any sequence of calls the total number of output samples is the total number of input samples divided by D rounded down, output k is the sum (in order) of input samples kD..kD+D-1, independent of how the stream is cut into calls, even though output overwrites the input slice.", "quantifier": "every input stream, every way to cut it, every factor", "why_tests_cant": "All cuts and aliasing interplay.", "anchors": ["dsp/downsample.go: LowPassDownsampleComplexFilter.Filter"]}
{"id": "C50", "title": "Rational decimation: sample count and phase invariant", "statement": "For rates 0 < slow <= fast, after any sequence of calls the number of output samples is floor(total * slow / fast), every output is the sum of the input samples since the previous output scaled by slow/fast, and the phase stays in range; also when the output overwrites the input.", "quantifier": "every input stream, every way to cut it, every rate pair", "why_tests_cant": "All rates and cuts, long-run drift.", "anchors": ["dsp/downsample.go: LowPassDownsampleRationalFilter.Filter"]}
{"id": "C51", "title": "Rotate90 multiplies sample n by i^n", "statement": "For every slice whose length is a multiple of four, the quarter-turn rotation replaces sample n by the sample times i^n exactly; applying it four times restores the slice; consecutive calls on consecutive chunks equal one call on the whole; otherwise it panics.", "quantifier": "every slice, every cut at multiples of four", "why_tests_cant": "All lengths and values.", "anchors": ["dsp/util.go: rotate90Filter, i32Rotate90Filter"]}
{"id": "C52", "title": "ARM rotation agrees with the portable code", "statement": "The 32-bit ARM assembly version of the integer quarter-turn rotation gives the same result as the portable code and stays inside the slice for every accepted length.", "quantifier": "every slice length and value", "why_tests_cant": "Off-by-one in negated values and lengths not multiple of eight.", "anchors": ["dsp/util_arm.s: i32Rotate90FilterAsm", "dsp/util.go: i32Rotate90Filter"]}
{"id": "C53", "title": "Linear interpolation is exact at samples and stays between neighbours", "statement": "Linear interpolation at integer position i returns sample i, between two samples returns a value on the segment between them, and never panics for any position.", "quantifier": "every sample sequence, every real position", "why_tests_cant": "Continuous positions and all sequences.", "anchors": ["dsp/interpolate.go: Linear, LinearF32"]}
{"id": "C54", "title": "Hermite interpolation passes through samples and reproduces quadratics", "statement": "Four-point third-order Hermite interpolation returns sample i at integer position i, is continuous across sample positions, and reproduces every polynomial of degree at most two in the interior.", "quantifier": "every sample sequence, every real position", "why_tests_cant": "Continuous positions and all sequences.", "anchors": ["dsp/interpolate.go: Hermite4p3o"]}
{"id": "C55", "title": "Windows are symmetric, bounded and normalised", "statement": "For every length at least two, the triangle, Hamming, Hanning, Blackman and Nuttall windows are symmetric, lie between their documented minimum and 1, and have the stated end values.", "quantifier": "every window length, every index", "why_tests_cant": "All lengths.", "anchors": ["dsp/window.go"]}
{"id": "C56", "title": "Windows are finite for every length", "statement": "Every window function fills a slice of any length with finite numbers.", "quantifier": "every length including 0 and 1", "why_tests_cant": "Length 1 is never tested.", "anchors": ["dsp/window.go: window, TriangleWindow"]}
{"id": "C57", "title": "FM demodulation does not depend on how the stream is cut into calls", "statement": "Demodulating a complex stream in any sequence of consecutive chunks gives the same output samples, bit for bit, as demodulating in one call, and returns the number of samples consumed.", "quantifier": "every stream, every cut", "why_tests_cant": "All cuts.", "anchors": ["dsp/demod.go: FMDemodFilter.Demodulate, fmDemodulate"]}
{"id": "C58", "title": "FM demodulation recovers phase increments", "statement": "In exact arithmetic the demodulator output for consecutive nonzero samples is within 0.0102 radian of the phase increment, and is unchanged when the whole stream is rotated by a common phase.", "quantifier": "every stream of nonzero samples", "why_tests_cant": "Continuous domain.", "anchors": ["dsp/demod.go", "dsp/math32.go: FastAtan2"]}
{"id": "C59", "title": "DTMF detection depends only on the current block and names a valid key", "statement": "The result of feeding a block depends only on that block (not on earlier blocks), samples beyond the block size are ignored, and the returned key index lies in range of the key table, naming the row and column with the largest magnitudes.", "quantifier": "every history of blocks, every block", "why_tests_cant": "All histories.", "anchors": ["dsp/dtmf/dtmf.go: DTMF.Feed"]}
{"id": "C60", "title": "DTMF detection leaves the caller's samples unchanged", "statement": "Feeding a block to the DTMF detector does not modify the caller's sample slice, so overlapping blocks can be fed from the same buffer.", "quantifier": "every block and every overlap", "why_tests_cant": "Tests never look at the slice afterwards.", "anchors": ["dsp/dtmf/dtmf.go: DTMF.Feed", "examples/dtmf_file.go"]}
{"id": "C61", "title": "Packet reader returns exactly the samples of each datagram", "statement": "For every sequence of well-formed datagrams, reading with a large enough slice returns, call by call, exactly the little-endian 16-bit I/Q samples of each datagram, with the sequence index and flags from its header.", "quantifier": "every sequence of datagrams of every size", "why_tests_cant": "All histories.", "anchors": ["borip/packet.go: PacketReader.ReadSamples"]}
{"id": "C62", "title": "Packet reader never delivers bytes that were not in the current datagram", "statement": "Every sample delivered by the packet reader is decoded from payload bytes of the datagram most recently received, for every sequence of datagrams including truncated ones, and no call panics.", "quantifier": "every sequence of datagrams of every length, every slice length", "why_tests_cant": "Stale-buffer effects depend on previous datagrams.", "anchors": ["borip/packet.go: PacketReader.ReadSamples"]}
{"id": "C63", "title": "Client reply parsing never panics", "statement": "Whatever line the server sends, every client call returns a value or an error and does not panic.", "quantifier": "every reply line", "why_tests_cant": "Infinite set of reply strings.", "anchors": ["borip/client.go"]}
{"id": "C64", "title": "Client running flag tracks the server's acknowledgement", "statement": "Over any sequence of client calls and server replies, the client considers the stream running exactly when the last acknowledged start has not been followed by an acknowledged stop.", "quantifier": "every sequence of calls and replies", "why_tests_cant": "All histories.", "anchors": ["borip/client.go: Go, Stop, Close"]}
{"id": "C65", "title": "Server packets carry the device buffer once, in order", "statement": "For every device buffer, the payloads of the datagrams the server sends for it, concatenated, are the conversion of the whole buffer in order, with consecutive 16-bit sequence numbers and the start flag on the first packet only.", "quantifier": "every device buffer length and content, every number of buffers", "why_tests_cant": "All lengths and histories.", "anchors": ["boripserver/main.go: startStreaming callback"]}
{"id": "C66", "title": "A device is never used by two connections", "statement": "Across all interleavings of connections opening, selecting and closing devices, a device is open for at most one connection, and is released when that connection ends.", "quantifier": "every interleaving of client commands and disconnects", "why_tests_cant": "Schedules.", "anchors": ["boripserver/main.go", "boripserver/devices.go"]}
{"id": "C67", "title": "No command sequence crashes the server", "statement": "Across all interleavings of commands, disconnects and device callbacks the server never panics by closing a channel twice.", "quantifier": "every interleaving of commands, disconnects and device callbacks", "why_tests_cant": "The crash needs two stops before the next callback.", "anchors": ["boripserver/main.go: stopStreaming, startStreaming"]}
{"id": "C68", "title": "Client and server of this repository understand each other", "statement": "For each client request, the reply produced by this repository's server for a successful operation is accepted by this repository's client as success and yields the value the server meant.", "quantifier": "every request and every device state", "why_tests_cant": "Cross-component, never tested together.", "anchors": ["borip/client.go", "boripserver/main.go"]}
{"id": "C69", "title": "CPU option string semantics", "statement": "For every GODEBUG string, a feature that is required or absent is never changed, the last mention of a feature (or of all) decides, unknown and malformed fields have no effect, and no feature is enabled that the CPU lacks.", "quantifier": "every option string, every feature table", "why_tests_cant": "All strings.", "anchors": ["dsp/internal/cpu/cpu.go: processOptions"]}
{"id": "C70", "title": "SIMD features in use are those of the CPU", "statement": "When the dsp package is initialised on amd64 the SSE2, SSE4 and AVX2 code paths are enabled exactly when the CPU and operating system support them.", "quantifier": "every CPU identification result", "why_tests_cant": "Needs machines of every kind.", "anchors": ["dsp/cpu_amd64.go", "dsp/internal/cpu/cpu_x86.go: doinit", "dsp/internal/cpu/cpu.go: Initialize"]}
{"id": "C71", "title": "A frame is a whole number of octets", "statement": "If the destuffed bits between two flags are not a whole number of octets, the decoder reports no frame for them, as HDLC requires.", "quantifier": "every bit string between two flags whose length is not a multiple of eight, every decoder state", "why_tests_cant": "Needs a frame whose check sequence is completed by the bits of the closing flag.", "anchors": ["dsp/ax25/hdlc.go: Feed"]}
{"id": "C72", "title": "The information field of every frame type that carries one is delivered", "statement": "For every frame type that carries an information field in AX.25 2.2 (information, UI, XID, TEST, FRMR) the returned frame contains the information bytes that were sent.", "quantifier": "every header, every control octet, every information field", "why_tests_cant": "All frame types with all contents.", "anchors": ["dsp/ax25/hdlc.go: processFrame"]}
{"id": "C73", "title": "Higher-order interpolators preserve constants, symmetry and linearity", "statement": "The four-point Hermite and the four- and six-point optimal interpolators are linear in the samples, give the same value when samples and position are reversed, and the optimal ones reproduce a constant sequence to within 23e-6 and 8e-8 of its value wherever all taps exist, at every position.", "quantifier": "every sample sequence, every real position", "why_tests_cant": "All sequences and all real positions.", "anchors": ["dsp/interpolate.go: Hermite4p3o, Optimal2x4p4o, Optimal2x6p5o and F32 versions"]}
{"id": "C74", "title": "Frequency-domain window coefficients match the time-domain windows", "statement": "Combining neighbouring DFT bins with the Hamming, Hanning and Blackman frequency coefficient lists gives the DFT of the samples multiplied by the periodic window with the coefficients of the corresponding time-domain window.", "quantifier": "every length, every sample sequence, every bin", "why_tests_cant": "An identity for all lengths and inputs.", "anchors": ["dsp/window.go: BlackmanFreqCoeff, HammingFreqCoeff, HanningFreqCoeff"]}
{"id": "C75", "title": "ARM FM demodulator agrees with the portable code", "statement": "The 32-bit ARM assembly FM demodulator produces the outputs, the remembered sample and the count of the portable code, and the count it returns is the number of samples consumed.", "quantifier": "every input, every output length", "why_tests_cant": "The assembly only runs on ARM; all inputs and lengths.", "anchors": ["dsp/demod_arm.s: fmDemodulateAsm", "dsp/demod.go: fmDemodulate"]}
{"id": "C76", "title": "A failed operation is an error for the caller", "statement": "When this repository's server refuses or fails an operation, this repository's client returns an error to its caller.", "quantifier": "every request, every server and device state", "why_tests_cant": "Cross-component; failures of the driver are hard to provoke.", "anchors": ["borip/client.go", "boripserver/main.go: handleCommand"]}
{"id": "C77", "title": "One call of the client is one line to the server", "statement": "Every call of the client that talks to the server writes exactly one line, so that replies and requests stay paired.", "quantifier": "every call, every argument string", "why_tests_cant": "All strings.", "anchors": ["borip/client.go: command"]}
{"id": "C78", "title": "CPU name", "statement": "For every result of the CPUID instruction the name is the 48-byte brand string in the order the manuals give, without leading blanks and up to its first null byte; without the extended leaves it is empty.", "quantifier": "every CPUID result", "why_tests_cant": "Needs machines of every kind, including brand strings of blanks or without a null byte.", "anchors": ["dsp/internal/cpu/cpu_x86.go: Name, appendBytes"]}
{"id": "C79", "title": "arm64 conversion and scaling agree with the portable code", "statement": "The arm64 assembly Ui8tof32 and VScaleF32 leave in memory exactly what the portable code leaves, and read and write nothing outside the common length of the slices.", "quantifier": "every pair of slices, every length, every float arithmetic", "why_tests_cant": "The assembly only runs on arm64; all lengths and all overlaps.", "anchors": ["dsp/conversion_arm64.s: Ui8tof32", "dsp/math32_arm64.s: VScaleF32"]}
{"id": "C80", "title": "arm64 maximum and minimum agree with the portable code", "statement": "The arm64 assembly VMaxF32 and VMinF32 return the value the portable code returns.", "quantifier": "every slice of float32 values, NaNs and infinities included", "why_tests_cant": "The assembly only runs on arm64; all lengths, all values.", "anchors": ["dsp/math32_arm64.s: VMaxF32, VMinF32"]}
{"id": "C81", "title": "32-bit ARM conversions agree with the portable code", "statement": "The 32-bit ARM assembly Ui8toi16, Ui8toi16b, Ui8tof32, Ui8toc64, F32toi16 and F32toi16ble write what the portable code writes, wherever in the 32-bit address space the slices are.", "quantifier": "every address, every length, with and without NEON and VFP vector mode", "why_tests_cant": "Depends on where the allocator puts a slice: only slices across address 2^31 fail.", "anchors": ["dsp/conversion_arm.s"]}
{"id": "C82", "title": "The ARM decimating filters agree with the portable code", "statement": "On 32-bit ARM the assembly of the two decimating low-pass filters leaves the memory, the filter state and the returned slice exactly as the portable code does: for the complex filter at every factor and for every reachable state, for the rational filter at every pair of rates with slow not above fast, wherever the samples lie in memory.", "quantifier": "every factor, pair of rates, state, memory and slice", "why_tests_cant": "Tests run on amd64 only, and no test places samples at chosen addresses.", "anchors": ["dsp/downsample_arm.s: LowPassDownsampleComplexFilter.Filter", "dsp/downsample_arm.s: LowPassDownsampleRationalFilter.Filter", "dsp/downsample.go"]}
{"id": "C83", "title": "VScaleF32, VAbsC64 and VMaxF32 on 32-bit ARM agree with the portable code", "statement": "On 32-bit ARM the assembly VScaleF32, VAbsC64 and VMaxF32 give what the portable code gives, with NEON, with VFP vector mode and without either, and read and write nothing outside the slices.", "quantifier": "every length, every value, subnormal numbers and NaNs included, each of the three ways of running", "why_tests_cant": "The assembly only runs on 32-bit ARM, and which path runs depends on the processor.", "anchors": ["dsp/math32_arm.s: VScaleF32, VAbsC64, VMaxF32", "dsp/math32.go"]}
{"id": "C84", "title": "The client's device is the one the server last named, and Close gives it back", "statement": "Over any sequence of client calls and server replies, the device the client has on record is the one described by the last reply that described a device or took it away, field by field. Close asks the server to stop exactly if the stream runs, then to release exactly if a device is on record, and sends nothing else.", "quantifier": "every sequence of calls, every reply including malformed ones and failures of the connection", "why_tests_cant": "Unbounded histories with arbitrary replies.", "anchors": ["borip/client.go: SelectDevice, parseDeviceString, Close"]}
{"id": "C85", "title": "FastAtan2 and FastAtan2_2 on 32-bit ARM agree with the portable code", "statement": "On 32-bit ARM the assembly FastAtan2 and FastAtan2_2 return what the portable functions return, and in exact arithmetic FastAtan2_2 is within 0.005 radians of the angle.", "quantifier": "every pair of single-precision values, NaNs, infinities and signed zeros included; every pair of real numbers", "why_tests_cant": "The assembly only runs on 32-bit ARM; the points where the two differ are thin sets that sampling misses.", "anchors": ["dsp/math32_arm.s: FastAtan2, FastAtan2_2", "dsp/math32.go: fastAtan2, fastAtan2_2"]}
{"id": "C86", "title": "The quarter-turn filters on 32-bit ARM do not depend on where the slice lies", "statement": "On 32-bit ARM the assembly of Rotate90Filter and I32Rotate90Filter turns the whole slice, whatever its address.", "quantifier": "every address and length, every content", "why_tests_cant": "The assembly only runs on 32-bit ARM, and no test places samples at chosen addresses.", "anchors": ["dsp/util_arm.s: rotate90FilterAsm, i32Rotate90FilterAsm", "dsp/util.go"]}
{"id": "C87", "title": "The DTMF programs print each key once per press and use every sample once", "statement": "The example programs never panic and print a key exactly when it has been confirmed by the required number of blocks in a row, once per uninterrupted stretch. The detector is given the latest samples of the input, and every sample of the file is used once.", "quantifier": "every input, every way the operating system divides the file into reads, every number of blocks", "why_tests_cant": "Unbounded input and histories; short reads depend on the operating system.", "anchors": ["examples/dtmf_file.go: main", "examples/dtmf_live.go: main", "dsp/dtmf/dtmf.go: Feed"]}
{"id": "C88", "title": "The AX.25 program recovers the bits and frames that were sent", "statement": "The receiver of the AX.25 example never hangs or panics; it gives each bit of a well-timed transmission to the decoder exactly once, 0 for a change of the tone and 1 for none, in spite of delays and a different clock rate of the sender; and a frame sent after two flags is returned unchanged, whatever was heard before.", "quantifier": "every sequence of magnitude differences, every earlier input, every frame, every clock rate and delay within stated tolerances", "why_tests_cant": "The clock has a real-valued state and unbounded history; noise before the transmission and the phase of the clock are arbitrary.", "anchors": ["examples/ax25.go: main", "dsp/ax25/hdlc.go: Feed"]}
{"id": "C89", "title": "The fast arctangents keep their accuracy in single precision", "statement": "With every operation rounded to binary32, FastAtan2 is within 0.0102 radian and FastAtan2_2 within 0.005 radian of the true angle for all finite arguments other than the origin, and neither returns a NaN or an infinity.", "quantifier": "every pair of finite single-precision numbers", "why_tests_cant": "2^64 pairs; the tests sample a grid around the unit circle and never reach overflow or the origin.", "anchors": ["dsp/math32.go: fastAtan2, fastAtan2_2"]}
{"id": "C90", "title": "The FM demodulator recovers the phase steps in single precision", "statement": "With every operation rounded to binary32, every output of the FM demodulator is finite and within 0.01021 radian of the phase step between two successive samples, for all finite nonzero samples; the first output of a new demodulator is 0.", "quantifier": "every sequence of finite single-precision samples, every earlier sample, every length", "why_tests_cant": "Rounding, overflow and underflow for arbitrary sequences; the tests compare two implementations on a few samples.", "anchors": ["dsp/demod.go: fmDemodulate, PolarDiscriminator32", "dsp/math32.go: fastAtan2"]}
{"id": "C91", "title": "The DC filter keeps its promises with rounding", "statement": "With every operation rounded, a DC filter with a coefficient of magnitude at most one never overflows on bounded samples, however long the stream; with a coefficient between zero and one its output on a constant input becomes exactly zero after finitely many samples and stays zero; and its output stays within a fixed multiple of the rounding unit of the output of the exact filter for all time.", "quantifier": "every bounded sequence of samples of every length, every coefficient, every state reached, single and double precision", "why_tests_cant": "Rounding errors accumulate in the state over unbounded streams; absorption and limit cycles appear only after millions of samples or near underflow.", "anchors": ["dsp/filter.go: DCFilter, DCFilter32, Filter, FilterOne"]}
{"id": "C92", "title": "The IIR and biquad filters stay near their difference equation with rounding", "statement": "With every operation rounded, an unused IIR filter or biquad filter run on bounded finite samples never overflows and its output stays within a fixed multiple of the rounding unit of the solution of its difference equation, for all time; the multiple depends only on the coefficients, through the sum of the magnitudes of the impulse response of the feedback part.", "quantifier": "every bounded sequence of samples of every length, all coefficients with poles inside the unit circle, every binary floating-point format", "why_tests_cant": "Rounding errors are fed back and accumulate over unbounded streams; the tests compare a few samples with a printed table.", "anchors": ["dsp/filter.go: IIRFilter.Filter, NewIIRFilter", "dsp/biquad.go: Filter, FilterF32"]}
{"id": "C93", "title": "The sliding DFT follows the DFT of the last samples with rounding", "statement": "With every operation rounded, the output of the sliding DFT stays within a fixed multiple of the rounding unit of the windowed DFT of the last n samples, for streams of every length: what has left the window is forgotten.", "quantifier": "every bounded sequence of finite samples of every length, every size, bin and window, single and double precision", "why_tests_cant": "The error depends on samples arbitrarily far in the past; the tests run one block.", "anchors": ["dsp/sdft.go: NewSDFT, Filter, NewSDFT32"]}
{"id": "C94", "title": "The assembly is joined to the Go code as declared", "statement": "Every function that package dsp declares without a body is defined exactly once by the assembly of each of the four architectures amd64, 386, arm and arm64, and nothing else is; every access of assembly to the frame of its caller covers exactly one word or number of the frame that Go's stack calling convention gives to the declared signature, loads only parameters, and is written under the name of what it accesses; every argument size written is the size of that frame; every jump goes to a function whose frame is the same, and to the Go version of the same function. The frame of any signature has its fields in order, apart from each other, aligned and within its size.", "quantifier": "All architectures, all functions of the package declared without a body, all accesses and jumps in the .s files; all signatures for the layout.", "why_tests_cant": "A missing symbol shows only when a program that calls it is linked for that platform; tests run on one platform.", "anchors": ["dsp/conversion.go:11-164", "dsp/math32.go:12-155", "dsp/conversion_amd64.s", "dsp/conversion_386.s", "dsp/conversion_arm.s", "dsp/conversion_arm64.s", "dsp/math32_386.s", "dsp/math32_arm.s", "dsp/stub_windows.go:6"]}
{"id": "C95", "title": "Feature detection on arm, arm64, mips64x, ppc64x and s390x reports what the machine tells", "statement": "After doinit every feature variable says what the machine tells: the bits of HWCap and HWCap2, the fields of ID_AA64ISAR0_EL1 and MIDR_EL1, and on s390x the facility list and the queries, whose bits are counted from the left of the big-endian memory. Detection never panics, and executes an instruction that needs a facility or the permission of the kernel only if that is there. The tables of options name each feature once, name no mandatory feature, and every variable that is documented is set.", "quantifier": "All values of the capability words, of the registers and of the memory filled by the query instructions.", "why_tests_cant": "The combinations of facilities are beyond enumeration and each test machine has one; the code for other architectures is never run on the test machine.", "anchors": ["dsp/internal/cpu/cpu_arm.go:21-34", "dsp/internal/cpu/cpu_arm64_hwcap.go:25-63", "dsp/internal/cpu/cpu_arm64_freebsd.go:10-46", "dsp/internal/cpu/cpu_ppc64x_linux.go:26-30", "dsp/internal/cpu/cpu_s390x.go:13-205", "dsp/internal/cpu/cpu_mips64x.go:22-33"]}
{"id": "C96", "title": "NEON is used exactly on the processors that have it", "statement": "On ARM, HaveNEON is true exactly if a line of /proc/cpuinfo begins with Features and lists the word neon or asimd; UseVector is true exactly if there is no NEON and a line that begins with Hardware names BCM2708, unless ARMVECTOR is a Boolean, which then decides. The regular expressions match exactly the lines they are meant to match.", "quantifier": "All contents of the file, all values of the variable ARMVECTOR.", "why_tests_cant": "Tests see the one file of the machine they run on; the assembly would execute illegal instructions if the flag were wrong.", "anchors": ["dsp/cpu_arm.go:12-52"]}
{"id": "C97", "title": "The Goertzel detectors measure the Fourier sum with rounding", "statement": "With every operation rounded, the complex result of a Goertzel detector fed n samples differs from the exact Fourier sum of the samples at the detector's frequency by at most n+1 times the rounding error of one step, the magnitude from the squared modulus accordingly, no result overflows, and a magnitude is never negative.", "quantifier": "every number of finite bounded samples, every frequency, coefficients within any delta of the exact sine and cosine, single and double precision, real, single-precision and complex detectors", "why_tests_cant": "The recursion is marginally stable, so errors of all past samples persist; the tests compare a few blocks with a tolerance.", "anchors": ["dsp/goertzel.go: Feed, Magnitude, Complex, NewGoertzel, NewGoertzel32, NewComplexGoertzel"]}
{"id": "C98", "title": "The Goertzel bounds hold on platforms that fuse multiplication and addition", "statement": "Whatever products the compiler fuses with additions, at every step and in every result, the detectors stay within the same error bounds as without fusing, and the results do not depend on the platform.", "quantifier": "every allowed choice of fused operations at every step, every bounded sequence of samples", "why_tests_cant": "The tests run on one platform, with one choice made by one compiler.", "anchors": ["dsp/goertzel.go: Feed, Magnitude, Complex"]}
{"id": "C99", "title": "A new Goertzel detector reports the nearest bin of the DFT, all with rounding", "statement": "With every operation of the constructor, of Feed and of Complex rounded, and library sine and cosine accurate to eta, a detector for target frequency f is tuned to the bin k nearest to n f / sampleRate, with coefficients within eta and a few units in the last place of the exact ones, and after one block its result is bin k of the DFT of the block within an explicit bound.", "quantifier": "every target frequency, sample rate and block size, every list of targets, every block of finite bounded samples, every sine and cosine accurate to eta", "why_tests_cant": "The rounding of the bucket to a whole number is wrong only for rare combinations of large parameters; tests use a few standard frequencies.", "anchors": ["dsp/goertzel.go: NewGoertzel, NewGoertzel32, NewComplexGoertzel, Feed, Complex"]}
{"id": "C100", "title": "The interpolators are accurate with rounding, and linear interpolation stays between its neighbours", "statement": "With every operation rounded, fused or not, the linear interpolators return the exact interpolation within 11 u X at every finite position (panicking exactly where exact arithmetic does), the Hermite ones within 171 u X, the optimal ones within 34 u X and 35 u X, where u is the unit roundoff and X bounds the samples. Linear interpolation never leaves the interval between the two neighbours, is monotone between them without fused operations, and linear and Hermite interpolation return a sample exactly at its position.", "quantifier": "every list of finite samples at most X in magnitude (64 X representable), every finite position, both precisions, every choice of fused operations", "why_tests_cant": "An overshoot by one unit in the last place needs particular bit patterns of three numbers, and tests on one platform never see the fused variants.", "anchors": ["dsp/interpolate.go: Linear, LinearF32, Hermite4p3o, Hermite4p3oF32, Optimal2x4p4o, Optimal2x4p4oF32, Optimal2x6p5o, Optimal2x6p5oF32"]}
{"id": "C101", "title": "The window functions are accurate with rounding; triangle windows are exactly symmetric", "statement": "With every operation, conversion and constant rounded, products fused with sums or not, and a library cosine accurate to eta, every element of a Hamming, Hanning, Blackman or Nuttall window is within eta + 64 u of the exact one (u the unit roundoff of binary64; the F32 functions add two units of binary32), and hence in range and symmetric to that accuracy; Hanning windows never leave [0, 1] if the cosine stays within [-1, 1]. Triangle windows are within 3 u, symmetric bit for bit, positive, at most 1, never decreasing towards the middle, and 1 in the middle of an odd length. The first element of a Blackman window is not 0 but -2^-56 on every platform, and that of a Nuttall window is negative without fused operations; windows of one element are NaN, the triangle excepted.", "quantifier": "every length from 2 (1 for the triangle) to 2^53, every element, every library cosine accurate to eta <= 1/2, every choice of fused operations", "why_tests_cant": "Tests compare a few lengths on one platform with a tolerance; they show neither a bound for all lengths nor that a window is negative by less than the tolerance.", "anchors": ["dsp/window.go: TriangleWindow, TriangleWindowF32, HammingWindow, HammingWindowF32, HanningWindow, HanningWindowF32, BlackmanWindow, BlackmanWindowF32, NuttallWindow, NuttallWindowF32, window, windowF32"]}
{"id": "C102", "title": "Fixed-point angles where int has 32 bits, and the table of arctangents with rounding", "statement": "Where int has 32 bits (386, arm, mips, mipsle), FastAtan2Fixed panics only at y = x = -2^31, returns a value in [-2^14, 2^14] otherwise, and agrees with the 64-bit version, hence within 0.08 rad of the angle, for |x|+|y| < 2^19; at (x, y) = (2^19, 0) it is off by a quarter turn. Atan2LUT panics exactly if 256 y wraps around to -2^31 and x = 1 or -1, agrees with the 64-bit version, hence within 0.005 rad, for |y| < 2^23, and is off by a quarter turn at (2^23, 2^23). The table, computed in binary64 with rounding, is correct to 1.001 units in each of its 131072 entries, for either width of int, if math.Atan is accurate to 2^-30, and monotone if math.Atan is.", "quantifier": "every pair of 32-bit integers, every table entry, every library arctangent accurate to 2^-30", "why_tests_cant": "Tests run on 64-bit machines, where none of these overflows happens, and sample a few angles.", "anchors": ["dsp/mathfixed.go: init, Atan2LUT, FastAtan2Fixed"]}
{"id": "C103", "title": "The standard DTMF detector names every pressed key, with rounding", "statement": "A detector made by NewStandard with sampling rate fs >= 8000 and block size 205*fs/8000 names the right key for every one of the sixteen, if the block is the sum of its two tones, each within 0.25 percent of its frequency, at any phases, of amplitudes that differ by a factor of at most 8, plus any disturbance of at most 1/25 of the weaker amplitude per sample; the threshold returned is then at least (n * weaker / 10)^2. This holds in exact arithmetic and with every operation, conversion and constant rounded, products fused with sums or not, given a library cosine and sine within 2^-50, fs <= 200000 and amplitudes from 2^-50 to 2^40. If two low tones share a bin, the detector never names a key of the later row, whatever it is fed; with 8000 samples per second and a block of 50 the keys 7, 8, 9 and C are never named.", "quantifier": "every sampling rate, key, pair of frequencies, amplitudes, phases and disturbance in those ranges, every choice of fused operations; every input for the last part", "why_tests_cant": "Tests play a few keys at one rate, one phase and no disturbance.", "anchors": ["dsp/dtmf/dtmf.go: NewStandard, New, Feed, max, stdLowFreq, stdHighFreq, Keypad", "dsp/goertzel.go: NewGoertzel, Goertzel32.Feed, Magnitude", "dsp/window.go: HammingWindowF32"]}
{"id": "C104", "title": "Printed names of AX.25 frames", "statement": "The printed name of a protocol identifier, a frame type, an unnumbered type or a supervisory type determines the byte it was printed from: no two of the 256 values print alike. Every decoded frame prints as I, S or U according to its control field, a supervisory frame as RR, RNR, REJ or SREJ in the order of the standard, an unnumbered frame by the name of the standard for its five modifier bits whatever its poll bit, or as two hexadecimal digits if the standard names none. The printed address determines callsign and SSID for every SSID that is not negative, and the decoder yields only SSIDs from 0 to 15, which print in one or two digits. With negative SSIDs two addresses can print alike.", "quantifier": "every byte, every valid control field, every callsign and SSID, every header", "why_tests_cant": "Tests print a handful of names.", "anchors": ["dsp/ax25/constants.go: PID.String, FrameType.String, UnnumberedType.String, SupervisoryType.String", "dsp/ax25/hdlc.go: Address.String"]}
{"id": "C105", "title": "The fuzz target", "statement": "On amd64, with and without SSE4, Fuzz returns 1 on every input: the assembly and the portable conversion cannot be told apart by it, an odd last byte being dropped. It never panics when both routines return, and returns 1 exactly if the two outputs agree. A routine that is wrong on every input makes it return 0, which the fuzzer does not take for a failure; a routine that ignores the scale is accepted on every input.", "quantifier": "every input, either setting of useSSE4, every pair of routines", "why_tests_cant": "A fuzzer tries finitely many inputs, and this target would not report a failure.", "anchors": ["dsp/fuzz.go: Fuzz", "dsp/conversion_amd64.s: I16bleToF32", "dsp/conversion.go: i16bleToF32"]}
{"id": "C106", "title": "The server's table of receivers", "statement": "After initialisation the table has exactly one entry for each name the driver gives that is not blank, with the last index of that name, not in use; the default device is the first such name. deviceList returns each device not in use exactly once and no other. Of receivers with equal names only the last can ever be selected, and the default device need not be the first receiver.", "quantifier": "every list of names, every order in which the map is traversed", "why_tests_cant": "Needs several receivers with equal or blank names.", "anchors": ["boripserver/devices.go: init, deviceList"]}
{"id": "C107", "title": "The recorder", "statement": "After any number of well-formed datagrams, with or without headers, the file samples.bin holds the samples of all of them in order, each component as the little-endian IEEE-754 single whose value is exactly the 16-bit integer received, and nothing else; the samples can be recovered from the file. The recording loop never panics whatever arrives, and an error leaves the file as it is. With a server that does what it is asked the program makes exactly ten exchanges, ending with STOP and the release of the device, and its second Close sends nothing. The server of this repository refuses the first request, so that the program never records from it; a server without a device to offer makes the program panic.", "quantifier": "every sequence of datagrams and errors, every library, every server state", "why_tests_cant": "Needs a receiver, and a server other than the one in the repository.", "anchors": ["borip/example/rx.go: main", "borip/packet.go: ReadSamples", "borip/client.go: SelectDevice, SetFrequency, Frequency, SetAntenna, SetRate, HeaderEnabled, SetDestination, Go, Stop, Close", "boripserver/main.go: handleCommand"]}
{"id": "C108", "title": "Biquads designed with rounding", "statement": "In float64, with math.Sin and math.Cos accurate to 2^-50 and any rounding of their results: for frequencies at least 2^-20 of the sample rate away from zero and from half the sample rate and quality factors from 2^-10 to 2^30 the coefficients of the low-pass, high-pass, both band-pass, notch and all-pass designs are finite, within (1+1/Q)/2^45 of the exact ones, and the poles they define are strictly inside the unit circle; the peaking design with gains up to 40 dB and quality factors from 2^-6 to 2^20 and both shelves with gains up to 40 dB, slopes from 2^-10 to 1 and frequencies at least 2^-10 of the sample rate away from the ends have their poles inside too, whichever products and sums are fused. From quality factor 2^57 on the low-pass is not stable although the exact design is, and below 2^-31 of the sample rate a correctly rounded cosine makes the low-pass reject every signal.", "quantifier": "every sample rate from 2^-100 to 2^100, every frequency, quality factor, gain and slope in the stated ranges, every library within the stated accuracy, every choice of fused operations", "why_tests_cant": "Stability is a strict inequality between rounded numbers that tests can only sample, and a test compares coefficients for a handful of designs", "anchors": ["dsp/biquad.go:45-197"]}
{"id": "C109", "title": "The decimating filters are accurate in single precision; whole-number samples are added without error", "statement": "For every downsampling factor D, every sequence of calls and every finite stream of samples of parts at most M, the outputs of LowPassDownsampleComplexFilter in rounded arithmetic are finite and each part lies within u*D^2*M + 2*D*w of the exact sum of its D samples (u the unit roundoff, w half the least subnormal), given 2*u*D <= 1 and no overflow of the sum. When the samples are multiples n*2^e of one power of two with D*max|n| below 2^p, as converted bytes and 16-bit samples are, the outputs are the exact sums. The rational filter's float32 outputs lie within (2*u*N*(N+2)*M + 4*N*w)*Slow/Fast + w of the exact sum times Slow/Fast, N = Fast/Slow+1; when Fast is Slow times a power of two and the samples are multiples of one power of two, each output is exactly the mean. The accuracy ends at factors of 2^24: a longer sum of ones stays at 2^24 whatever the factor.", "quantifier": "all factors and rate pairs in range, all finite streams, all ways of cutting the stream into calls", "why_tests_cant": "Rounding errors accumulate over the samples of one output; a test compares a handful of sums with a tolerance chosen by hand, and a stuck accumulator needs 16 million samples to show.", "anchors": ["dsp/downsample.go:3-8", "dsp/downsample.go:16-31", "dsp/downsample.go:33-38", "dsp/downsample.go:46-61"]}
{"id": "C110", "title": "The amd64 instructions of Ui8tof32, run one by one, convert the slices and touch nothing else", "statement": "Run instruction by instruction from any machine state with the arguments in the frame, the assembly routine Ui8tof32 for amd64 returns; every output float32 is the conversion of its input byte less 128, and no other byte of memory, not the frame and not the frame pointer register has changed, with and without SSE4.1.", "quantifier": "for all machine states, slice lengths, addresses (multiples of four for the output), memory contents, flags and values of useSSE4", "why_tests_cant": "Tests see a few lengths and alignments on one processor and do not look at the memory behind the slices; the instructions themselves, their flags, immediates and lanes need a machine model.", "anchors": ["dsp/conversion_avo_amd64.s:5-163"]}
{"id": "C111", "title": "I8tof32, instruction by instruction on amd64", "statement": "Run line by line on a machine model, I8tof32 returns with the output holding the conversions of the signed bytes and everything else in memory unchanged. It overruns both slices in exactly the stated cases (more than 32 elements and fewer past the last whole sixteen than are handled singly in front), and it returns with BP zero whenever it converts more than 32.", "quantifier": "All machine states, addresses, lengths, memory contents and access rights, with and without SSE4.1.", "why_tests_cant": "The overrun needs an unlucky alignment and length and is silent unless a page ends there; a lost frame pointer shows only in profilers.", "anchors": ["dsp/conversion_amd64.s:317-461"]}
{"id": "C112", "title": "Ui8toc64, instruction by instruction on amd64", "statement": "The routine makes the input length even, doubles the output length in the frame and jumps to Ui8tof32; run together they store the pairs of bytes less 128 as complex numbers, leave out a last odd byte and overrun in the stated cases.", "quantifier": "All machine states, addresses, lengths and memory contents.", "why_tests_cant": "The arguments of another routine are rewritten in place; wrong lengths show only for odd inputs or full outputs.", "anchors": ["dsp/conversion_amd64.s:463-470", "dsp/conversion_avo_amd64.s:7-117"]}
{"id": "C113", "title": "Ui8toi16 and Ui8toi16b, instruction by instruction on amd64", "statement": "Run line by line, both return with each sample holding the byte less 128 in both bytes; nothing else in memory, the frame (but the halved output length of Ui8toi16b) and the frame pointer has changed. Ui8toi16 needs an even output address, Ui8toi16b none.", "quantifier": "All machine states, addresses, lengths and memory contents.", "why_tests_cant": "Three loops with aligned stores depend on the alignment of the output and on the length modulo 32.", "anchors": ["dsp/conversion_amd64.s:4-89", "dsp/conversion_amd64.s:91-163"]}
{"id": "C114", "title": "F32toi16 and F32toi16ble, instruction by instruction on amd64", "statement": "Run line by line, both return, store one sample per number and change nothing else in memory. A product whose integer part fits in 16 bits becomes that integer part, at every place. Outside that range the samples up to the last whole 32 are limited and the rest are taken modulo 65536; the frame pointer keeps its value exactly when the count is a multiple of 32.", "quantifier": "All machine states, addresses, lengths, memory contents and scales; the statements about values use IEEE-754 binary32.", "why_tests_cant": "Whether a loud sample is clipped or wraps depends on its place in the slice, and the lost frame pointer is seen only by a profiler or traceback.", "anchors": ["dsp/conversion_amd64.s:472-532", "dsp/conversion_amd64.s:534-538"]}
{"id": "C115", "title": "I16bleToF64 and I16bleToF32, instruction by instruction on amd64", "statement": "Run line by line, with or without SSE4.1, both return with element i the product of sample i and the scale, rounded once; nothing else in memory, the frame and the frame pointer have changed. A last odd byte is left out.", "quantifier": "All machine states, addresses, lengths, memory contents and scales.", "why_tests_cant": "Two instruction sequences for sign extension are selected by the processor; a machine that has SSE4.1 never runs the other one.", "anchors": ["dsp/conversion_amd64.s:543-631", "dsp/conversion_amd64.s:633-714"]}
{"id": "C116", "title": "VScaleF32, instruction by instruction on amd64", "statement": "Run line by line, with any features, also in place, it returns; every product it stores is that of the number at the same place and the scale. Without vector features, or when the count is at most one above a multiple of 64 (AVX2) or 32 (SSE2), all numbers are scaled; otherwise only one after the last multiple and the others keep their old bytes.", "quantifier": "All machine states, addresses, lengths, memory contents, scales and feature settings.", "why_tests_cant": "The missing loop back of the scalar part shows only for counts two or more above a multiple of the block, on machines with the feature.", "anchors": ["dsp/math32_amd64.s:228-321"]}
{"id": "C117", "title": "VMaxF32 and VMinF32, instruction by instruction on amd64", "statement": "Run line by line, with any features, both return, change only the result in the frame, and yield the largest (smallest) of the numbers that count, with its bits; without not-a-numbers in the vector part these are all. With them the result is not a number exactly if the last element of the vector part is not, and a number is left out exactly if a not-a-number follows in its lane or in stated places of the last block.", "quantifier": "All machine states, addresses, lengths and memory contents; all float32 bit patterns; all feature settings.", "why_tests_cant": "What a not-a-number hides depends on its place modulo 16 or 32 and on the lanes joined after it.", "anchors": ["dsp/math32_amd64.s:13-117", "dsp/math32_amd64.s:119-223"]}
{"id": "C118", "title": "Ui8tof32: the checked-in amd64 assembly is what its generator describes", "statement": "The file `dsp/conversion_avo_amd64.s` is generated: its instructions, labels and jumps are those that `dsp/conversion_avo_amd64.go` emits, in the same order, with physical registers in place of the generator's virtual ones; and the choice of registers is right: whatever the instructions compute, after every number of steps the program with physical registers is at the same line, with the same memory, flags and frame, as the one with a register of its own for every variable of the generator.", "quantifier": "all meanings of the instructions (any function of the registers read), all initial registers and memories, all numbers of steps", "why_tests_cant": "Tests run the checked-in file on some inputs; they neither compare it with its generator nor see that a value was overwritten while still needed on a path or in register parts the inputs do not reach.", "anchors": ["dsp/conversion_avo_amd64.go:12-196", "dsp/conversion_avo_amd64.s:7-163"]}
{"id": "C119", "title": "amd64 assembly: which routines keep the frame pointer", "statement": "The assembly routines must return with the register BP as they found it (the frame pointer of the caller, read by tracebacks and profilers); they are declared without a frame, so nothing saves it for them.", "quantifier": "all routines of the amd64 assembly, all arguments, memories and processors, all steps of all runs", "why_tests_cant": "A lost frame pointer shows up only when a profiler or debugger walks the stack at that moment; the results of the calls are right.", "anchors": ["dsp/conversion_amd64.s:4-714", "dsp/math32_amd64.s:4-321", "dsp/conversion_avo_amd64.s:7-163"]}
{"id": "C120", "title": "arm64 assembly: the instruction numbers are the instructions named beside them", "statement": "Every instruction given as a number (WORD) in the arm64 sources is, decoded by the formats of the architecture manual, the instruction written in the comment beside it; a number is never decoded in two ways and every encoding of the instructions in question is decoded.", "quantifier": "all numbers, all instructions of the table with any fields; all WORD lines of both files", "why_tests_cant": "A wrong digit gives another valid instruction, which can agree with the intended one on the inputs of a test; the assembler does not look at the comment.", "anchors": ["dsp/conversion_arm64.s:9-81", "dsp/math32_arm64.s:12-176"]}
{"id": "C121", "title": "Ui8tof32, instruction by instruction on arm64", "statement": "Run line by line with the instruction numbers decoded, the routine returns with the output holding the conversions of the bytes less 128 for min(len(input), len(output)) elements, each with exactly that value in IEEE-754 arithmetic; nothing else in memory and in the frame has changed.", "quantifier": "All machine states, addresses, lengths and memory contents.", "why_tests_cant": "The offset of the last store of a block is negative and its address register has already been advanced; lanes, widths and offsets are in hand-assembled numbers.", "anchors": ["dsp/conversion_arm64.s:9-81"]}
{"id": "C122", "title": "VScaleF32, instruction by instruction on arm64", "statement": "Run line by line, also in place, the routine returns with every one of the min(len(input), len(output)) numbers multiplied by the scale and rounded once; nothing else in memory and in the frame has changed; where the amd64 routine scales all numbers both leave the same memory.", "quantifier": "All machine states, addresses, lengths, memory contents and scales.", "why_tests_cant": "Blocks of 16 and single numbers are handled by different hand-assembled instructions; the two processors are never compared bit by bit.", "anchors": ["dsp/math32_arm64.s:12-76"]}
{"id": "C123", "title": "VMaxF32 and VMinF32, instruction by instruction on arm64", "statement": "Run line by line, both return the maximum (minimum) of the slice and change nothing else: not a number exactly if an element is not a number, otherwise the bits of one of the elements (of an infinity if there are none), and +0 (\u22120) where both zeros are the largest (smallest).", "quantifier": "All machine states, addresses, lengths and memory contents; all float32 bit patterns.", "why_tests_cant": "Eight accumulators are joined across lanes; the sign of a zero and a not-a-number in a lane depend on every one of the joining instructions.", "anchors": ["dsp/math32_arm64.s:84-129", "dsp/math32_arm64.s:131-176"]}
{"id": "C124", "title": "The numbers in the 32-bit ARM assembly are the instructions in their comments", "statement": "Every instruction given as a number in the 32-bit ARM sources is an encoding of exactly one instruction of the architecture, and that is the instruction in the comment beside it.", "quantifier": "All numbers in the five files; for the decoder all numbers and all operand fields.", "why_tests_cant": "The numbers were assembled by hand from the comments; an operand bit that is wrong only shows up for particular data.", "anchors": ["dsp/conversion_arm.s", "dsp/math32_arm.s", "dsp/demod_arm.s", "dsp/util_arm.s", "dsp/downsample_arm.s"]}
{"id": "C125", "title": "Ui8toi16 and Ui8toi16b, instruction by instruction on 32-bit ARM", "statement": "Run line by line, the routines return with all min(len(input), len(output)) samples (len(output)/2 for bytes) written as the byte less 128 twice; nothing else in memory has changed.", "quantifier": "All machine states, addresses, lengths and memory contents.", "why_tests_cant": "Addresses are compared as signed numbers, so where the input lies decides how much is converted.", "anchors": ["dsp/conversion_arm.s:3-35"]}
{"id": "C126", "title": "Ui8tof32 and Ui8toc64, instruction by instruction on 32-bit ARM", "statement": "Run line by line, with and without NEON, the routines return with all samples converted to the byte less 128, exactly in IEEE-754 arithmetic; nothing else in memory has changed.", "quantifier": "All machine states, addresses, lengths and memory contents, with and without NEON.", "why_tests_cant": "Three loops share the work depending on length and processor; addresses are compared as signed numbers; most instructions are hand-assembled numbers.", "anchors": ["dsp/conversion_arm.s:37-155", "dsp/conversion_arm.s:161-168"]}
{"id": "C127", "title": "F32toi16 and F32toi16ble, instruction by instruction on 32-bit ARM", "statement": "Run line by line, in scalar and in vector mode of the floating-point unit, the routines return with all min(len(input), len(output)) samples (len(output)/2 for bytes) written as the low 16 bits of the integer part of the rounded product with the scale; nothing else in memory has changed and FPSCR has its vector fields as Go needs them.", "quantifier": "All machine states, addresses, lengths and memory contents, with and without vector mode.", "why_tests_cant": "Which of three loops runs depends on length and processor; the vector mode must be switched off again; addresses are compared as signed numbers; most instructions are hand-assembled numbers.", "anchors": ["dsp/conversion_arm.s:170-302"]}
{"id": "C128", "title": "VScaleF32, instruction by instruction on 32-bit ARM", "statement": "Run line by line, with and without NEON, the routine returns with all min(len(input), len(output)) numbers multiplied by the scale in IEEE-754 arithmetic, also in place; nothing else in memory and in the frame has changed.", "quantifier": "All machine states, addresses, lengths and memory contents, with and without NEON.", "why_tests_cant": "Which loop runs depends on length and processor; the NEON unit does not compute as the floating-point unit does for denormal numbers; the instructions are hand-assembled numbers.", "anchors": ["dsp/math32_arm.s:142-191"]}
{"id": "C129", "title": "VMaxF32, instruction by instruction on 32-bit ARM", "statement": "Run line by line, with and without NEON, the routine returns the largest of the numbers in the slice and \u2212\u221e if there is none; nothing else in memory and in the frame has changed.", "quantifier": "All machine states, addresses, lengths and memory contents, with and without NEON.", "why_tests_cant": "Three loops share the work depending on length and processor; the NEON unit does not compare as the floating-point unit does for not-a-numbers and denormal numbers; the instructions are hand-assembled numbers.", "anchors": ["dsp/math32_arm.s:271-352"]}
{"id": "C130", "title": "VAbsC64, instruction by instruction on 32-bit ARM", "statement": "Run line by line, with and without vectors, the routine returns with the absolute values of all min(len(input), len(output)) complex numbers stored, also in place, as the portable Go code computes them; nothing else in memory and in the frame has changed, and LEN and STRIDE in FPSCR are zero again.", "quantifier": "All machine states, addresses, lengths and memory contents, with and without vectors.", "why_tests_cant": "The vector loop depends on a mode of the floating-point unit that few processors have and on the meaning of a reserved setting; the instructions are hand-assembled numbers.", "anchors": ["dsp/math32_arm.s:197-269", "dsp/math32.go:80-90"]}
{"id": "C131", "title": "Accuracy of the absolute values of VAbsC64", "statement": "The computed absolute value of a complex64 with finite parts is within 1.21e-7 (two units in the last place) of the exact one; float32(math.Sqrt(float64(x))) is the float32 nearest to the exact root.", "quantifier": "All float32 parts, all ways in which Go may fuse the products with the sum.", "why_tests_cant": "Rounding errors depend on all 64 bits of the input; rounding a root twice could do harm for some of them.", "anchors": ["dsp/math32.go:80-90"]}
{"id": "C132", "title": "FastAtan2 and FastAtan2_2, instruction by instruction on 32-bit ARM", "statement": "Run line by line with the instruction numbers decoded, both routines return, change nothing but their result in the frame and the flags, and their result is that of the portable Go code in IEEE-754 arithmetic and within 0.0102 (0.005) radians of the angle.", "quantifier": "All machine states with the vector length zero (any for FastAtan2_2), all float32 bit patterns.", "why_tests_cant": "Conditional instructions after comparisons take different branches for equal and unordered operands; the diagonal y = x is decided by one condition code; the instructions are hand-assembled numbers.", "anchors": ["dsp/math32_arm.s:10-68", "dsp/math32_arm.s:70-140", "dsp/math32.go:127-180"]}
{"id": "C133", "title": "fmDemodulateAsm, instruction by instruction on 32-bit ARM", "statement": "Run line by line with the instruction numbers decoded, the routine returns len(input), writes one number for every sample to the output and the last sample to the filter, changes nothing else in memory and in the frame, and the numbers are those of the portable Go code and within 0.01021 radians of the phase steps.", "quantifier": "All machine states with the vector length zero, all addresses, lengths and memory contents.", "why_tests_cant": "The signs of zeros and the order of subtraction in hand-assembled numbers decide single outputs; the length returned is not the number of samples used when the output is short.", "anchors": ["dsp/demod_arm.s:3-93", "dsp/demod.go:34-43"]}
{"id": "C134", "title": "The quarter-turn filters, instruction by instruction on 32-bit ARM", "statement": "Run line by line, rotate90FilterAsm and i32Rotate90FilterAsm return the slice they are given, with sample n multiplied by i^n as the portable Go code does for every sample of the whole groups of four; nothing else in memory and in the frame has changed.", "quantifier": "All machine states, addresses, lengths and memory contents.", "why_tests_cant": "Addresses are compared as signed numbers; the length of the integer filter counts words, not samples; a complement and a negation differ by one.", "anchors": ["dsp/util_arm.s:3-44", "dsp/util_arm.s:46-87", "dsp/util.go:28-35", "dsp/util.go:46-54"]}
{"id": "C135", "title": "The decimating filters, instruction by instruction on 32-bit ARM", "statement": "Run line by line with the instruction numbers decoded, lowPassDownsampleComplexFilterAsm and lowPassDownsampleRationalFilterAsm return with the filter, the slice and the length of the result as the portable Go code leaves them, call after call; nothing else in memory and in the frame has changed; in IEEE-754 arithmetic every output is near the exact sum of its samples.", "quantifier": "All machine states (vector length zero for the rational filter), addresses, lengths and memory contents; chains of calls of any length.", "why_tests_cant": "Counters of 32 bits wrap; addresses are compared as signed numbers; results are stored over samples not yet read if an index is wrong by one; the instructions are hand-assembled numbers.", "anchors": ["dsp/downsample_arm.s:3-64", "dsp/downsample_arm.s:66-122", "dsp/downsample.go:16-31", "dsp/downsample.go:46-61"]}
{"id": "C136", "title": "The device's samples at the recorder", "statement": "Over any network that loses, repeats and reorders datagrams, the call of the client's packet reader that reads datagram number k of a stream returns exactly the samples of block number k of the device, with the start flag exactly if k = 0 and sequence number k modulo 65536; the difference of the sequence numbers of datagrams read in order tells how many were lost between them; over a faultless network the recorder's file holds exactly the samples of the device in order.", "quantifier": "for all sequences of device buffers, all networks (lists of numbers of delivered datagrams), all slices of the caller", "why_tests_cant": "The chain of server callback, network and reader has unboundedly many histories; the repetition of the first quarter of every buffer shows only when all four quarters are compared at the far end.", "anchors": ["boripserver/main.go:326-376", "borip/packet.go:42-81", "borip/example/rx.go:152-176"]}
{"id": "C137", "title": "The assembly of dsp/internal/cpu, instruction by instruction", "statement": "Run line by line, cpuid, xgetbv, getisar0, getMIDR, stfle and the seven queries of s390x return what the hardware answers in the bytes of their results and change nothing else in memory; with them the detection on x86, arm64 and s390x never executes an instruction that the hardware does not have or permit, as far as the hardware announces truthfully what it has, and leaves every variable as the announcements say.", "quantifier": "All answers of the hardware, all registers, memory contents and frame addresses (aligned to eight bytes for stfle), all widths of addresses on x86.", "why_tests_cant": "A test runs on one processor; facility lists shorter than four doublewords, leftover bytes in the frame and instructions that fault occur on machines nobody has in a test; the s390x instructions are hand-assembled numbers.", "anchors": ["dsp/internal/cpu/cpu_x86.s:10-27", "dsp/internal/cpu/cpu_arm64.s:7-18", "dsp/internal/cpu/cpu_s390x.s:7-62", "dsp/internal/cpu/cpu_x86.go:44-115", "dsp/internal/cpu/cpu_arm64_hwcap.go:25-59", "dsp/internal/cpu/cpu_arm64_freebsd.go:10-42", "dsp/internal/cpu/cpu_s390x.go:137-201"]}
{"id": "C138", "title": "The AX.25 program's clock in double precision", "statement": "With the float64 times of the program, every sum rounded: whatever numbers come in, and however many, the inner loop ends, the decoder does not panic and the time stays a finite number between minus one half and one bit; while the tone does not change only 1 bits are given, as many as whole bit times have passed up to a drift of 1e-17 s per window; and after any input at all a well-timed transmission of two flags, a frame and a flag makes the program return the frame that was sent.", "quantifier": "All inputs (finite, infinite and NaN) of any length before the transmission; all frames up to 510 bytes; all senders whose bit length T' and delay e satisfy 8|T' - 1/1200| + e <= 1/2400 - 1e-15 s and 1/800 + e + 1e-15 <= 2 T'.", "why_tests_cant": "Rounding errors add up over hours of input before the frame, and 1/1200 and 4/44100 are not representable; a test sees one history of the clock.", "anchors": ["examples/ax25.go:31-52", "examples/ax25.go:84-126"]}
{"id": "C139", "title": "From the sound to the AX.25 frame", "statement": "The program examples/ax25.go (with the 32-bit Goertzel detectors it means) returns the frame that was sent when it reads a recording of 1200-baud audio frequency shift keying without phase jumps, at 81 to 100 percent of full scale with noise of up to 1/300 of full scale in every sample, no later than 28 samples after the end of the closing flag, and no frame in between; and when no sample exceeds 28 percent of full scale (9100) it never returns any frame.", "quantifier": "All frames up to 510 bytes; all phases, all positions of the bits relative to the windows of four samples, bit times within 1/800 of 1/1200 s; all recordings and reads of any sizes before the transmission; all ways in which Go may fuse multiplications and additions; all cosines and sines within 2^-50 of the exact ones.", "why_tests_cant": "The position of each change of tone relative to the windows and the phase of the tone at that moment are real numbers, and the margin of the threshold depends on both; a test hears one phase and one position per bit.", "anchors": ["examples/ax25.go:31-128", "dsp/goertzel.go:30-73"]}
{"id": "C140", "title": "From the sound to the printed digits", "statement": "The program examples/dtmf_file.go, every operation rounded, prints the keys that were dialled, each once and in the order of the presses, and then a newline: when the file holds presses of at least 714 samples (90 ms), each the sum of the key's two tones, either within 0.25 percent of its frequency and at most one and a half times as strong as the other, with a noise in every sample of up to 1/30 of the weaker tone, and silence of at least 255 samples (32 ms) between the presses. Sound that is not a key prints nothing.", "quantifier": "All lists of presses of any length, all keys, phases, frequencies, amplitudes from the last bit of a sample up, positions relative to the blocks of 51 samples, all files of 16-bit samples read in pieces that fill the buffer; all ways in which Go may fuse multiplications and additions; all cosines and sines within 2^-50 of the exact ones.", "why_tests_cant": "The window is applied to the same samples up to five times, so the effective window is not the one of the detector; whether the nine blocks in a row are reached once depends on the position of a press relative to the blocks and on what the partly filled blocks happen to show; a test plays a few presses.", "anchors": ["examples/dtmf_file.go:12-60", "dsp/dtmf/dtmf.go:42-80", "dsp/goertzel.go:30-73"]}
{"id": "C141", "title": "Accuracy does not depend on which products the compiler fuses", "statement": "The error bounds for IIRFilter, BiQuadFilter (Filter and FilterF32), FastAtan2, FastAtan2_2 and the FM demodulator hold for every choice, sample by sample and expression by expression, of the products a Go compiler computes together with the sum or difference they are a term of; the exact bits of the output do depend on that choice.", "quantifier": "every format and filter order, all coefficients, samples, stream lengths and points in the stated ranges, every way of fusing", "why_tests_cant": "The Go specification permits fusing and compilers for different processors use that differently; a test run checks only what one compiler did on one processor.", "anchors": ["dsp/filter.go:72-86", "dsp/biquad.go:13-43", "dsp/math32.go:128-183", "dsp/demod.go:13-43"]}
{"id": "C142", "title": "The double precision polar discriminators return the phase step", "statement": "PolarDiscriminator returns a finite angle within 1e-15 plus the error of math.Atan2 of the phase of a times the conjugate of b, however the complex product is compiled; polarDiscriminant of the example receiver returns the same in half turns.", "quantifier": "all pairs of finite complex numbers the product of whose magnitudes lies between 2^-900 and 2^1000, every compilation of the complex product, every accuracy of the library arctangent", "why_tests_cant": "Continuous domain, and the compilation of a complex product differs between processors.", "anchors": ["dsp/demod.go:7-9", "borip/example/rx.go:15-19"]}
{"id": "C143", "title": "Peaking and shelving filters get accurate coefficients", "statement": "With gains of at most 40 dB, the six coefficients computed for a peaking filter are finite and within 2^8 (d + 2^-46)(1 + 1/q) of the exact design, and those of the shelves within 2^14 (d + 2^-46)/slope, where d bounds the relative error of math.Pow(10, y); the square root is the rounded one of IEEE-754 and products may be fused with sums.", "quantifier": "all sample rates from 2^-100 to 2^100, frequencies from 2^-20 (peaking) or 2^-10 (shelves) of the sample rate to the same distance below half of it, quality factors from 2^-10 to 2^30, slopes from 2^-10 to 1, gains up to 40 dB, every choice of fused products", "why_tests_cant": "Continuous ranges of four parameters, and rounding that depends on which products the compiler fuses.", "anchors": ["dsp/biquad.go:142-197"]}
{"id": "C144", "title": "A biquad designed and run in double precision stays near the exact filter", "statement": "The filter that any of the nine constructors computes with rounding, run with rounding from rest, returns finite samples that differ from those of the exact filter of the exact design by at most E X, where X bounds the samples; with a = sin(w0)/(2q) and m the smaller of a and sin(w0), E is (1+1/q)((1+a)/m)^4/2^40 for the designs with a quality factor, and similar closed forms hold for the peaking filter and the shelves.", "quantifier": "all nine designs with parameters for which 512 times the error of the coefficients is at most m^2 (16384 times and sin(w0)^2 for shelves), streams of every length with samples up to X, X from 2^-180 to 2^180, every choice of fused products at each sample and in the design", "why_tests_cant": "The error of a recursive filter accumulates over streams of unbounded length, and the parameters are continuous.", "anchors": ["dsp/biquad.go:13-26", "dsp/biquad.go:46-197"]}
{"id": "C145", "title": "GODEBUG parsing prints the documented warnings, and only those", "statement": "For every table of options with distinct names and features and every GODEBUG string, processOptions prints first, in the order of the fields, one line for every field that begins with \"cpu.\" and has no equals sign, a value other than on or off, or an unknown feature name, and then, in the order of the table, one line for every option last set on without processor support or last set off though required; it prints nothing else, and nothing at all for a string without a field of the package. Printing has no influence on the features.", "quantifier": "for every option table with distinct names and features, every content of the feature variables and every string", "why_tests_cant": "The set of strings and of tables is unbounded, and which lines appear depends on the order and interplay of the fields (last one wins, all against single names, required features).", "anchors": ["dsp/internal/cpu/cpu.go:148-215"]}
{"id": "C146", "title": "What the replies to GO and STOP promise", "statement": "For every execution of boripserver: the server takes a connection for streaming exactly while the driver calls its callback; after an acknowledged GO and until the next one every datagram of the connection goes to the destination set when the GO came, whatever DEST says later; after an answered STOP and until the next acknowledged GO at most the datagrams of the buffer in work follow; a GO answered with RUNNING has a stream that goes on; and the socket of a stream is closed when the stream has ended.", "quantifier": "for every number of connections and every interleaving of commands, accesses to the close channel, callbacks and single datagrams, and every result of the driver and of the network", "why_tests_cant": "Whether a datagram follows a STOP, and where it goes, depends on the interleaving of the goroutine of the connection with the thread of the driver; a test sees a few of them.", "anchors": ["boripserver/main.go:193-212", "boripserver/main.go:299-374", "boripserver/main.go:400-421"]}
{"id": "C147", "title": "The BorIP server answers every line, however the bytes arrive", "statement": "For every division of the bytes of a connection into reads, client.loop greets, then serves every complete line in order, answering each line that is not blank with exactly one line; the replies and the state depend only on the bytes. If the connection fails while the replies are written, a prefix of them is sent, the line whose reply did not fit is the last one served, and the loop ends.", "quantifier": "for every byte sequence, every division into reads, every state of the client record and every behaviour of the driver from line to line", "why_tests_cant": "The ways to cut a stream into reads are unbounded; the buffered reader has corner cases at its buffer size that a test with short commands never meets.", "anchors": ["boripserver/main.go:375-398", "boripserver/main.go:400-406"]}
{"id": "C148", "title": "The vector routines of math32.go are accurate in single precision", "statement": "For finite float32 data, every number that VMulC64xF32, VAddF32, VAddC64, VScaleF32 and VScaleC64 leave in their output is the float32 nearest to the exact product or sum of the elements read, and infinite exactly when that is half a unit beyond the largest float32. For VMulC64, with complex64 products as Go's compiler makes them (in float64, fused or not, converted at the end), both parts of every product are the exact ones rounded first to 53 bits and then to the nearest float32, so their error is at most 2^-24 + 2^-51 of the part itself, however much cancels.", "quantifier": "all slice lengths and positions without overtaking, all finite float32 contents, all choices of fused operations", "why_tests_cant": "Accuracy claims quantify over all pairs of float32 numbers and all slices; cancellation only shows for pairs chosen for it.", "anchors": ["dsp/math32.go:12-25", "dsp/math32.go:27-41", "dsp/math32.go:43-61", "dsp/math32.go:63-78"]}
{"id": "C149", "title": "BorIP client and server over a network connection", "statement": "Calls of the BorIP client, made over a connection to the server that cuts the bytes of either direction in any way, return what the same calls return when each is answered directly, and leave client and server as then; the server has sent a reply to each call before the next is made; if the connection breaks at any byte of the replies, the calls answered before return the same and all later ones return the error of the connection; likewise if it breaks at any byte of the requests.", "quantifier": "all sequences of calls, all ways of cutting both directions, all points of breaking, all answers of the driver from line to line", "why_tests_cant": "The cuts of both directions and the points of breaking are unbounded; a test on a local connection sees each line arrive whole.", "anchors": ["borip/client.go:80-99", "borip/client.go:323-336", "boripserver/main.go:375-398"]}
{"id": "C150", "title": "The server's goroutines are free of data races", "statement": "In every execution of boripserver, two accesses of different goroutines to the same variable, at least one of them a write, are ordered by the happens-before relation of the Go memory model (program order, unlock before lock, go statement before what it starts, close of a channel before a receive that returns because of it).", "quantifier": "all executions: any number of connections and devices, any commands, any results of the driver, any interleaving", "why_tests_cant": "The race detector only reports races that a run happens to show; freedom from races is a statement about all interleavings.", "anchors": ["boripserver/main.go:73-80", "boripserver/main.go:193-308", "boripserver/main.go:310-372", "boripserver/main.go:400-421", "boripserver/main.go:445-455", "boripserver/devices.go:18-95"]}
{"id": "C151", "title": "From the microphone to the printed digits", "statement": "The program examples/dtmf_live.go, every operation rounded, prints the keys that are dialled into the microphone, each once and in the order of the presses: when the sound up to the first signal or the first error of a read consists of presses of at least 4231 samples (96 ms), each the sum of the key's two tones, either within 0.25 percent of its frequency and at most one and a half times as strong as the other, with a noise in every sample of up to 1/30 of the weaker tone, and samples of zero for at least 1411 samples (32 ms) between the presses. The block during which a signal arrives is still evaluated; then the program prints a newline and returns. After an error of a read it stops with a message, and nothing that was read before is lost. It never panics. That the silence is samples of zero is needed: a constant other than zero, however small down to 2^-40, is printed as the key 4 after 15 blocks.", "quantifier": "All lists of presses of any length, all keys, phases, frequencies, amplitudes from 2^-40 to 2^20, all positions relative to the blocks of 282 samples, all times of signals and errors; all ways in which Go may fuse multiplications and additions; all cosines and sines within 2^-50 of the exact ones.", "why_tests_cant": "The block has 1130 samples and 282 new ones in each turn, so that the two oldest samples carry a fifth factor of the window and every press meets the blocks at a different phase; a test needs a microphone and plays a few presses.", "anchors": ["examples/dtmf_live.go:13-69", "dsp/dtmf/dtmf.go:42-80", "dsp/goertzel.go:30-73"]}
{"id": "C152", "title": "The files chosen for a target fit together", "statement": "For every operating system and architecture the go command chooses files of packages dsp and dsp/internal/cpu that fit together: no name of the package is declared by two of them, every name that one of them uses is declared by one of them, every function without a body is defined in assembly exactly once, and assembly defines nothing else. Where a file states its constraint in both notations (//go:build and // +build), the two mean the same.", "quantifier": "All names of operating systems and architectures, known to Go or not, and all sets of further tags that are not such names (nor `ignore`); for the two notations all truth values of the tags.", "why_tests_cant": "A test builds the package on the machine at hand; the constraints have to be consistent for every target, including those that nobody has tried.", "anchors": ["dsp/internal/cpu/cpu_arm64_other.go:5-18", "dsp/internal/cpu/cpu_ppc64x.go:5-24", "dsp/internal/cpu/cpu_arm64_darwin.go:5-33", "dsp/stub_windows.go:1-6", "dsp/fuzz.go:1", "dsp/internal/cpu/cpu_x86.s:5-27"]}
{"id": "C153", "title": "Close of the BorIP client leaves no stream and no device behind", "statement": "After any session of the BorIP client with the server that ends with Close, the requests of Close have told the server to stop the stream there may be and to give back the device it has for this client, and the server answers them.", "quantifier": "for every sequence of calls before Close, every state of the server without a stream, every behaviour of the driver from line to line, every end of streams between lines, and every division of the requests into reads", "why_tests_cant": "What the client believes of stream and device depends on all replies before; the server's state depends on callbacks between the lines. A test of Close after one Go sees neither the device the client never learnt of nor the channel closed twice.", "anchors": ["borip/client.go:338-346", "borip/client.go:101-124", "boripserver/main.go:207-227", "boripserver/main.go:279-290", "boripserver/main.go:299-308"]}
{"id": "C154", "title": "The text printed by the AX.25 program tells what was received", "statement": "What examples/ax25.go prints for the frames it receives, one after the other, determines how many frames there were, and of each the source, the destination, the repeaters and the bytes of the information field: two different histories of reception never give the same text. A recorded transmission, under the conditions of C139, makes the program print its addresses and its information.", "quantifier": "All lists of frames of any length, all addresses, all information fields of any length.", "why_tests_cant": "A test compares the text of a few frames with what is expected; that no two of infinitely many histories look alike, including frames whose text could be mistaken for a row of the dump or a list of repeaters, needs a proof.", "anchors": ["examples/ax25.go:106-124", "dsp/ax25/hdlc.go:12-14", "dsp/ax25/hdlc.go:47-56"]}
{"id": "C155", "title": "The interpolation of the AX.25 program", "statement": "For every interpolation factor from 1 on, a turn of the loop in examples/ax25.go moves the samples by window*interp places and fills exactly the places that become free, without a panic; every sample that was read stands unchanged at the end of its group, and the last one is remembered for the next turn if the factor is above 1; in exact arithmetic the samples between lie on the straight lines between the samples read, at equal distances, also across the limits of the turns; in single precision, for factors up to 2^20 and samples of magnitude at most 1, the j-th of a group is within 7e-8*j + 3e-7 of the line; with the factor 1 of the program the samples read are appended.", "quantifier": "All factors, all window sizes, all buffers with room for a window, all samples; places in any arithmetic, values in exact arithmetic and in single precision.", "why_tests_cant": "The program has the constant factor 1, so that no test runs the interpolation; that the index stays within the slice for every factor is a statement about all of them.", "anchors": ["examples/ax25.go:61-77"]}
