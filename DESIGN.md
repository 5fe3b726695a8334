# Formal model of samuel/go-dsp

Source: `/repo` (samuel/go-dsp), read as text. Nothing of it is built or run.
Prover: Lean 4.33.0 with Mathlib; project in `lean/`, modules `Verif.*`.

## Layout

One directory per area of the source (`Verif/Ax25`, `Verif/Conv`, `Verif/Filt`, …), in each:

* `*Model.lean` – executable (or, for exact real arithmetic, mathematical) models, each
  definition citing the file and lines it models.
* `*Spec.lean` – small independent specifications (bit-serial CRC, HDLC encoder, AX.25
  header encoder, DFT sums, difference equations, …). They do not use model helpers. Specifications
  that are one line long stand next to the theorem.
* `*Lemmas.lean`, `*History.lean`, … – helper lemmas.
* `*Props.lean`, `*Sound.lean` – the property theorems `Cnn_…`, each with a non-vacuity `example`.
  Violated properties have theorems `Cnn_violated…` (the negation, with a witness or for a whole
  class of inputs) and `…_partial` (what does hold).

## Modelling conventions

* Go slices are `List`s; where aliasing or "the rest is unchanged" matters, memory is a function
  or a list updated element by element (`List.set`) and a slice is an offset and a length in it.
* Panics are explicit: `Option`/`Except` results, `none` = panic.
* Machine integers: `BitVec`/`UInt8`-style modular arithmetic when wrap-around can matter,
  `Nat`/`Int` otherwise (loop indices below the slice length).
* Floating point comes in three flavours, and each property says which one it uses:
  1. *law-free arithmetic*: the model is polymorphic in the number type and its operations, about
     which nothing at all is assumed. Theorems of this kind (chunk invariance, lengths, in-place
     safety, agreement of two code paths) hold bit for bit for IEEE-754 arithmetic, since each
     float operation is a function of its operands;
  2. *exact arithmetic*: the number type is ℝ or ℂ (DFT equality, stability, gains, error bounds).
     Rounding is not modelled there; this is said in the property ("in exact arithmetic");
  3. *IEEE model*: a small model of binary32 values with round-to-nearest-even (`Verif.Fp`)
     for the conversions where exactness is the point.
* Concurrency: a labelled transition system over explicit steps; theorems range over all step lists.

## Plan per property

| id | model | proof |
|----|-------|-------|
| C01 | table as `List (BitVec 16)`, fold of the byte step | finite check of all 256 table entries by kernel evaluation, lifted to all registers by xor-linearity, induction over the byte list |
| C02 | `checkCrcCcitt` | residue computation by linearity and invertibility of the byte step |
| C03 | `checkCrcCcitt` | linearity: the check of `m xor e` depends on the zero-register CRC of `e`; shift invertibility for bursts, the factor x+1 for odd weight, order of x (kernel-evaluated LFSR period) for two-bit errors |
| C04 C05 | `Feed` as a step function on a record, processFrame left abstract in the bit-level theorem | invariant relating shift register to the number of trailing ones; independent HDLC encoder in the spec |
| C06 | `Feed` over a whole bit list from a new decoder | history invariant: buffer = destuffed bits since the last flag |
| C07 | `Feed`/`processFrame` with explicit panics | invariant `length ≤ 512`, case analysis of every index |
| C08 C09 | `Feed` | invariant over continuations |
| C10 C11 C13 | `processFrame`, `parseAddress` | independent header encoder; induction over repeaters; C13 is violated by the code (masks and operator precedence at hdlc.go:83,86,89): negation proved with a witness, partial theorem for the characters that are decoded correctly |
| C12 | memory model in which `Frame.Info` is a view of the receive buffer | violated by the code: negation with a witness history; partial theorem: unchanged until the next byte is stored |
| C71 | `Feed` | violated: closing flag bits complete the last octet; proved for every misaligned frame, plus a witness of a returned frame |
| C72 | `processFrame` | violated for XID, TEST, FRMR; proved for every such frame |
| C14 C15 C17 C18 | `conversion.go` on lists | pointwise lemmas over `BitVec`, kernel evaluation over all 256 bytes for the byte table; for C17 also the IEEE-754 encoding (`Bits`), read back for every value and every pattern but NaNs |
| C16 | IEEE binary32 model | exactness of scaling by powers of two |
| C19 C28 | element-wise loops with in-place update and explicit panics | induction; C19 is violated for empty slices (`output[n-1]`, `&input[0]`): negation plus partial |
| C20–C25 | amd64 assembly loops as step functions on (index, memory) with the alignment of the output pointer as a parameter and every load/store recorded | induction on the loop; C20, C21, C24, C25 are violated: exact characterisation of the inputs for which they fail, negation with witness, partial theorem elsewhere |
| C26 C27 | float order abstracted to a type with NaN and a total order on the rest; `MAXPS` semantics (second operand on unordered) | lane invariant; NaN case violated: negation plus partial, and the exact result with NaNs anywhere (`MaxClosed`, `MaxNan`: which elements count, when the result is NaN) |
| C29–C32 | 64-bit two's complement model with Go's truncated division and explicit divide-by-zero / index panics | case analysis; error bound by calculus on ℝ (`Real.arctan`); violations at the integer extremes proved as negations |
| C33–C35 | exact arithmetic, including the `1e-20` offset | monotonicity of the error on pieces; documented 0.01 bound is violated, 0.0102 proved; range violated by about 2e-6 |
| C36–C39 | `filter.go` on lists, law-free arithmetic plus ℝ for the closed form | induction over samples; C38, C39 violated: witness plus partial |
| C40 C41 C44 | law-free and ℝ | induction |
| C42 C43 | design formulas over ℝ with sin/cos | Jury conditions by inequalities, BIBO and convergence to steady state |
| C45 C46 | law-free and ℂ | recurrence invariant |
| C47 C48 | ring buffer and recurrence over ℂ | invariant: bin = DFT of the ring contents |
| C49 C50 | in-place loops with explicit memory | refinement to a pure stream function, counting lemma |
| C51 C52 | lists with sign operations; ARM version with bitwise NOT and its loop bound | induction; C52 violated: witness |
| C53 C54 | ℝ positions, lists | algebra; negative positions violate parts: witness plus partial |
| C55 C56 | ℝ cosine sums with an explicit not-a-number for division by zero | trigonometry; length 1 violates C56 |
| C57 | law-free | induction |
| C58 | ℂ, `Complex.arg` | from C33 |
| C59 C60 | law-free Goertzel plus the in-place window | C60 violated: witness |
| C61 C62 | packet reader as state machine over datagrams | induction over datagrams; C62 violated: witness plus partial for well-formed datagrams |
| C63 C64 C68 | client parsing on character lists; replies as strings | case analysis; C63, C68 violated: witnesses plus partial |
| C65 | callback as function of the device buffer | violated (first chunk is repeated): negation; partial: sizes, sequence numbers, flags |
| C66 C67 | transition system of connections, devices, callbacks | invariant; C67 violated: witness trace |
| C69 C70 | `processOptions` on character lists; `doinit`/`init` order | induction over fields; C70 violated since `Initialize` is never called |
| C73 | the four- and six-point interpolators in exact arithmetic with the decimal constants | closed forms of the polynomials; error against constants, lines and symmetric inputs |
| C74 | window coefficient lists in the frequency domain | product-to-sum identities against the periodic time windows |
| C75 | `fmDemodulateArm` (`Demod/DemodModel`): the loop of dsp/demod_arm.s over an ordered field, the shorter of the two lengths, and the returned length of the input | induction over the loop against the portable `fmDemodulate`, branch by branch for the arctangent; violated for an output shorter than the input, where the count is not the number of samples consumed; rounding, NaNs and memory are in C133 |
| C76 C77 | server replies as text, client parsing, one line per call | case analysis over the calls; violated: witnesses plus partial |
| C78 | `Name` from CPUID registers | list lemmas on trimming and cutting |
| C79 | arm64 registers as lanes, counted loops | state after `c` elements is a function of `c`; violated for one kind of overlap |
| C80 | `FMAX`/`FMIN` on the IEEE model | maximum for an injective rank into a linear order; violated for NaNs |
| C81 | 32-bit addresses compared as signed words | exact number of elements converted; violated across 2^31 |
| C82 | the ARM decimating filters with 32-bit registers | same stream function as the portable code; the rational one is violated across 2^31 |
| C83 | `VScaleF32`, `VAbsC64`, `VMaxF32` of math32_arm.s: NEON, VFP vector and scalar paths; NEON flushes subnormals; the VFP stride field as the architecture defines it | partial and violated: scaling and maximum equal outside NEON and for normal numbers, magnitude equal outside vector mode; witnesses for subnormals, NaNs and the reserved stride |
| C84 | the client of C63 with its log of exchanges | induction over the calls; the device line is specified by its words |
| C85 | `FastAtan2`, `FastAtan2_2` of math32_arm.s with condition flags and the constants as written, and the portable functions, over one interface instantiated with binary32 and with an ordered field | partial and violated: cases on the comparisons, exact set of differences for `FastAtan2`; the error bound in exact arithmetic is proved everywhere |
| C86 | the loops of C52 with 32-bit addresses compared as signed words | exact number of groups turned; violated across 2^31 for every content |
| C87 | main loops of the two DTMF examples over the detector of C59, reads of any size | invariant over the turns: key counting, and the exact product of windows on every sample; samples violated |
| C88 | clock recovery and main loop of `examples/ax25.go` over the decoder of C04–C10, exact times | invariant: time since the last tone change determines the clock; composed with C10 for a whole frame; first bit violated |
| C89 | `fastAtan2`, `fastAtan2_2` on the IEEE model, binary32 | rounding error of each operation added to the approximation error of C33/C34; violated on overflow and near the origin |
| C90 | `fmDemodulate` of C57 instantiated with binary32 arithmetic and `fastAtan2Go` | rounding of the complex product bounded relative to the magnitudes, argument of a quotient near one, then C89; violated for tiny samples |
| C91 | `DCFilter`, `DCFilter32` of C40 instantiated with the rounded arithmetic of a binary format (binary64, binary32), `FVal` in FpRd; at each sample `x + a*lw` is fused or not (`DC.filterBy` in `FusedModel`) | rounding as a monotone function on the rationals (FpRd); a bound on the state by absorption; a monotone bounded orbit on a grid stops; error recursion; violated for the coefficient one and for negative coefficients |
| C92 | `IIRFilter.Filter` of C36, `BiQuadFilter.Filter` and `FilterF32` of C38 instantiated with the rounded arithmetic of a binary format, `newComplexIIR` with `complex64`/`complex128` data (`CVal`) and any compilation of the complex products (`CMul` in `FpProduct`); `widen`, `narrow` for the conversions | relative error algebra `Near` (FpNear); the error obeys the feedback recurrence, whose amplification `H` is bounded from the coefficients or from the poles; the parts of a complex filter are simulated by two real filters up to the sign of zeros; samples near underflow by enlarging the bound of the samples; partial: strong feedback, coefficients near underflow and overflow are excluded, and `C92_violated_overflow` shows that overflow must be |
| C93 | `SDFT.filter` of C47 instantiated with rounded complex numbers `CVal` whose product is any that a compiler may make (`CMul`); `newSDFTof` is the constructor for any arithmetic, the values of `cmplx.Exp` being a parameter | law-free description of the accumulators; error bounds of complex `+ - *` (FpComplex, FpProduct); linear growth of the error; integers stay exact; violated by a large sample |
| C94 | The frame of the caller in Go's stack calling convention; tables of all body-less declarations, of the Go functions jumped to, and of all `TEXT` symbols with their accesses `name+off(FP)`, argument sizes and jumps on amd64, 386, arm, arm64 | layout: induction on the signature; tables: `decide` over the whole (finite) table; violated by missing symbols, the second declaration on Windows, and one wrong name |
| C95 | `doinit`/`osInit`/`hwcapInit` of the other architectures, `bitIsSet`, `Has`, with the special instructions executed as a trace and panics as `none`; the tables of options | bit lemmas; big-endian load; case split on the facilities; five violations |
| C96 | `init` of dsp/cpu_arm.go with a backtracking matcher for the operators of the two regular expressions, `strconv.ParseBool` | matcher equals the meaning of the expressions (induction); lines of a prefix; violated by the limit of 2048 bytes and by parts of words |
| C97 | `Goertzel`, `Goertzel32`, `ComplexGoertzel` of C45 instantiated with rounded arithmetic; `gzOf` is the constructor, the values of `math.Cos`, `math.Sin` being parameters | the phasor `q1 e^{jw} - q2` is rotated by every step, so errors add up and do not grow; size of the stored numbers from the phasor; violated: a negative magnitude |
| C98 | the same model run on expressions (`Expr`); `Expr.Eval` gives every value an implementation may compute, `fma` the fused operation (`Fp/FpFma`) | a fused operation is within the running error bound of the two separate ones, for any expression; then as C97; violated: the bits differ |
| C99 | `bucketFp`, `angleFp`, `newGzFp`: the constructors with rounding, the conversions included; `math.Cos`, `math.Sin` are parameters assumed accurate to `η` (`Trig`); an out-of-range conversion to `uint64` is a parameter | bucket: monotone rounding and the distance of a fraction to the next whole number; angle: error of three operations; then C97 for the block; violated: the bucket for large parameters |
| C100 | `linear64`, `linear32`, `hermiteFp`, `opt4Fp`, `opt6Fp`: the formulas of dsp/interpolate.go as expressions over a format (`InterpFpModel`), conversions and floor included; `Expr.Eval` gives the values any platform may compute | an error analysis of expressions whose leaves are themselves approximations (`Fp/FpApprox`); in between: the rounded fraction is exact and at most 1 minus an ulp, so the rounded step cannot exceed the distance; monotone rounding; violated: overflow, NaN position |
| C101 | `windowE`, `hanningE`, `triangleV` and the functions built on them (`WindowFpModel`): every operation of dsp/window.go rounded, conversions and constants included; `math.Cos` a parameter; `Stored`, `Stored32`: what a platform may leave in the slice | error of the computed angle, Lipschitz cosine, `Fp/FpApprox` for the sum; Hanning range and the triangle by monotone rounding (halves of integers are exact); violated: all evaluations of the first element of a Blackman window listed, the phase being exactly 0; NaN propagation for one element |
| C102 | `fastAtan2Fixed32`, `atan2LUT32`: the functions of dsp/mathfixed.go with 32-bit two's complement; `lutFp`: a table entry with every operation rounded and the conversion to `int` (`Fixed32Model`) | the same case analysis as C29–C32 at the smaller width; equality with the 64-bit model where nothing overflows, so that the error bounds carry over; error analysis of the entry, truncation, monotone rounding (`LutFp`); wrong results at the first overflowing inputs proved |
| C103 | `newStandard` (`StandardModel`) over the detector of C59; `NewStandardFp`, `FeedFp` (`DtmfFpModel`): window in single, detectors in double precision, every operation rounded, fused or not, `math.Cos`, `math.Sin` and out-of-range conversions parameters | closed form of the Hamming-windowed exponential sum (`ToneLemmas`): at least n/3 in the own bin, at most n/14 one and a half bins away, n/200 six bins away; bins of the eight tones for every rate; C59 for the rest. With rounding: C98, C99, C101 bound the computed magnitudes, and the gap is larger than their error. Blindness: the first of equal magnitudes wins, for any irreflexive and transitive comparison |
| C104 | the `String` methods of `constants.go` and `hdlc.go` (`StringModel`), strings as bytes | a left inverse (`readName`) of each, checked on all 256 bytes and lifted; names of control fields from the decoding lemmas of C05; addresses by the last dash; two addresses with SSIDs of different signs print alike (violated) |
| C105 | `Fuzz` over any pair of routines (`FuzzModel`); the amd64 routine is the model of C23, the portable one that of C19, in IEEE arithmetic | C23 and C19 give equal outputs, `!=` is false on equal finite numbers; wrong routines that are accepted or answered with 0 are exhibited (violated) |
| C106 | `init` and `deviceList` of `devices.go` (`TableModel`); the driver is a list of names, a map a list of pairs traversed in any order | induction over the names; equal names (violated) |
| C107 | recording goroutine and `main` of `borip/example/rx.go` (`RxModel`) over the reader of C61 and the client of C63; `math.Float32bits` (`BitsModel`); file operations do not fail, resolving and listening are a parameter | C61 pass by pass; the bytes read back by the IEEE-754 rule (`ofBits32_toBits32`); `main` computed for any replies of a server that cooperates; the reply of `boripserver` and the dash reply (violated) |
| C108 | the nine designs of `dsp/biquad.go` over arbitrary arithmetic (`DesignModel`), taken in the binary64 model of C28 with the library functions as parameters: sine and cosine within `2^-50`, `math.Pow(10, y)` within `2^-40`, `math.Sqrt` within a relative `2^-50`; over ℝ they are shown equal to the designs of C42 | `w0` within `2^-48`, margins of sine and cosine away from 0 and π, then the Jury conditions of the rounded coefficients (`1 - alpha < 1` survives rounding while `alpha > 2^-54`); shelves by the running error bounds of C99's fused expressions. The designs outside the stated ranges are not classified, apart from the two failures proved; the accuracy of peaking and shelves is C143 |
| C109 | the decimators of C49/C50 taken at the complex and real numbers of the rounded model (`FVal`, `CVal`); `total` is the exact sum of the sample values | `C49_calls`/`C50_calls` name each output as a sum in order; the errors of the additions are summed by induction (`sum_err`), multiples of one power of two stay on the grid (`sum_exact`); the ratio `float32(Slow)/float32(Fast)` is near or, for powers of two, equal to its exact value. `C109_violated_long`: the sum of ones stops at 2^24. Not covered: rates of 2^22 and above (rational filter), overflowing sums. |
| C110 | `X86Model`: an instruction-level machine for amd64 (general registers, vector registers as bytes, flags that may be undefined, byte memory with access rights, frame arguments, package variables); `AvoModel` lists `conversion_avo_amd64.s` line by line, the program counter is the source line | each straight-line block is executed symbolically, the loops by induction (`AvoLemmas`); the output, the untouched memory, frame and frame pointer are stated on the final memory byte by byte. Violated (overrun) in exactly the cases of `C110_returns_iff` |
| C111 | `ConvModel` lists `conversion_amd64.s` line by line for the machine of `X86Model`; `I8tof32` is lines 317–461 | as C110 (`I8Lemmas`). Violated: the loop in front runs to sixteen minus the offset instead of four minus it, so the last block overruns in the cases of `C111_returns_iff`; `BP` is used as a scratch register (`C111_violated_bp`) |
| C112 | lines 463–470, then `Ui8tof32` of `AvoModel` | `Tails` is the jump to a routine of another file; C110 is applied to the rewritten frame |
| C113 | lines 4–89 and 91–163 | as C110 (`U16Lemmas`); full |
| C114 | lines 472–532 and 534–538; the floating-point unit is a parameter, IEEE-754 in `X86Ieee` for the value theorems | as C110 (`F16Lemmas`); the memory is described exactly; violated for integer parts outside 16 bits and for the frame pointer |
| C115 | lines 543–631 and 633–714, `useSSE4` true or false | as C110 (`I64Lemmas`, `I32Lemmas`); full |
| C116 | `MathModel` lists `math32_amd64.s` line by line; lines 228–321, `useAVX2`, `useSSE2` any bytes; input and output may be the same | as C110 (`VScaleLemmas`); full. Says exactly how many numbers are scaled, the others keep their bytes (violated as a scaling of the slice) |
| C117 | lines 13–117 and 119–223; comparisons IEEE-754 (`X86Ieee`) | as C110 (`VMaxLemmas`, `VMinLemmas`), for any operations on lanes; then the closed form of C26. Full, with not-a-numbers anywhere |
| C118 | `X86/GenModel` (conversion_avo_amd64.go as a monad that emits lines and makes virtual registers), `X86/AvoModel` (the checked-in file), `X86/GenSpec` (registers read and written; runs for arbitrary meanings of the instructions; liveness along paths) | `C118_generated`: equality by evaluation of both finite lists; the runs by `run_same` (an allocation without interference does not change a run), interference checked on a set of live registers that is proved closed. The avo library (not in the repository) is not modelled |
| C119 | machine model and the three amd64 programs of C110–C117 | `exec_keeps`: an instruction changes no general register but its destination (all instructions, all operands); `run_keeps`: no run leaves a set of lines without BP as a destination; `C119_conversion` (keeps iff not I8tof32, F32toi16, F32toi16ble), `C119_others_partial`, `C119_violated` |
| C120 | `A64/A64Model.formats` (bit formats from the architecture manual), `A64/ConvModel` and `A64/MathModel` (the two arm64 files line by line, numbers as numbers), `A64/WordSpec` (the comments as written, assembler syntax of each instruction) | `Mach.decode_iff` for all numbers (formats pairwise clash in a fixed bit); both files by evaluation of the whole finite table; full. Trusted: the formats |
| C121 | arm64 machine model: registers, flags, memory, access rights, any meaning of floating-point operations | run line by line (`Ui8Lemmas`): basic blocks symbolically, loops by induction; full for slices that do not overlap; values with IEEE-754 arithmetic |
| C122 | as C121; input and output may be the same | as C121 (`VScaleLemmas`); full; compared with C116 |
| C123 | as C121; `fmax`/`fmin` on values as in C80 | as C121 (`VMaxLemmas`, `VMinLemmas`), for any operations; then the closed form of C80 carried over from values to bits; full |
| C124 | `A32/A32Model.formats` (bit formats from the ARMv7-A manual), `A32/{Conv,Math,Demod,Util,Down}Model` (the five ARM files line by line, numbers as numbers), `A32/WordSpec` (the comments as written, assembler syntax of each instruction) | as C120; full. Trusted: the formats |
| C125 | 32-bit ARM machine model: general and floating-point registers, flags, FPSCR, memory, access rights, alignment of floating-point accesses | run line by line (`Ui16Lemmas`); loops that compare addresses as signed numbers by induction (`A32Lemmas.aloop`, result `Arm.reached`); exact for every address, claim itself false across 2^31 (`C125_violated`) |
| C126 | as C125; NEON and VFP conversions are different parameters; NEON present or not | as C125 (`Ui8Lemmas`): three loops; exact for every address, false across 2^31 (`C126_violated`); values with IEEE-754 arithmetic |
| C127 | as C125; vector mode of the floating-point unit (FPSCR LEN/STRIDE, register banks of eight; the meaning of the STRIDE field is a parameter, only that 0 means 1 is used) | as C125 (`F16Lemmas`; a vector instruction is eight scalar ones: `A32Lemmas.vfp_eight`); exact for every address, false across 2^31 (`C127_violated`); FPSCR afterwards; integer parts with IEEE-754 products, out of range too |
| C128 | as C125; multiplication of NEON and of the floating-point unit are different parameters | as C125 (`VScaleLemmas`), in place too; values with IEEE-754 products (`C128_value_partial`, `C128_rounded`); with NEON denormal numbers become zero (`C128_violated`) |
| C129 | as C125; comparison (`vcmpe`, flags) and NEON maximum are parameters; LEN in FPSCR is zero on entry, as Go needs it | as C125 (`VMaxLemmas`): the run gives the result of the structured model of C83, and so its theorems; with NEON false with not-a-numbers and denormal numbers (`C129_violated_nan`, `C129_violated_subnormal`) |
| C130 | as C125; multiplication, addition and square root are parameters, as is the meaning of STRIDE = 01 | as C127 (`VAbsLemmas`): blocks of four with LEN = 3, then single numbers; the stored words are the roots for any arithmetic; partial, because STRIDE = 01 is reserved (`C130_violated`); with IEEE-754 arithmetic equal to the portable code (`C130_value`) |
| C131 | dsp/math32.go:88 in binary32, root in binary64 and back; square root modelled as a computable function that rounds the exact root (`FpSqrt`) | the root lies in a cell between two multiples of half the spacing, in which all numbers are rounded alike; the binary64 root of a float32 lies in the same cell, so rounding twice is harmless; error of the squares and the sum from `FpFma.eval_err` for every way of fusing; partial: not for overflow and underflow of the squares, where it is false |
| C132 | dsp/math32_arm.s:10-140 line by line as in C125, numbers decoded; arithmetic and comparison are parameters; result words are in the caller's frame | blocks of straight code and the branches on the compared flags give the structured model of C85 for any arithmetic (`AtanLemmas`); bit masks are sign and magnitude, constants are the rounded ones, so with IEEE-754 arithmetic C85 and C89 carry over; on the diagonals the inner branch is bounded anew (`inner_angle`); partial: false where `C132_violated` says |
| C133 | dsp/demod_arm.s:3-93 line by line as in C125, numbers decoded; filter, input and output anywhere in memory, output overlapping neither of the others | one pass through the loop is one arctangent of C132's kind of the conjugate product in the order of the instructions (`one`), the loop fills the output by induction (`loop`), stores read back outside the written places unchanged; with IEEE-754 arithmetic the products are those of dsp/demod.go:38, so C57, C85 and C90 carry over; a pair with real part zero and imaginary part −0 has the value 0 in both; partial: false for short outputs and in C85's cases |
| C134 | dsp/util_arm.s:3-87 line by line as in C125; the slice is read and written in place with lists of registers | a pass through the loop leaves the first sample and turns three (`oneF`, `oneI`), memory is the filled slice by induction; the number of passes from the signed comparison (`turns_cond`); spec with pairs of words and a change of sign (`Turned`), carried to complex numbers and to C51; partial: false for int32, across 2^31 and for lengths the portable code rejects |
| C135 | dsp/downsample_arm.s line by line as in C125; filter and slice as bytes in memory | a pass through each loop is one step of a recursion over words (`stepC`, `stepQ`), memory is the filled slice; the recursion is the step machine of C49/C50 with wrapped counters (`runC_after`, `runQ_after`), so the spec is the portable model over the words before and after (`FilteredC`, `FilteredQ`); chains of calls by induction; values by a homomorphism (`push_map`) to C109; partial: rational filter false across 2^31 |
| C136 | the streaming callback of C65, the reader of C61 and the recorder of C107 put together (`LinkProps`); the network is a list of numbers of datagrams in order of arrival; no new definitions of code | payloads are conversions of blocks, `iq` of a conversion is the samples of the block; for the buffers of 32768 bytes the server asks for, the file is the first quarter four times, and equals the device's samples exactly if they repeat every 8192 bytes |
| C137 | the three assembly files of dsp/internal/cpu line by line (`AsmModel`, on the machine of `Mach`): frame memory with readable and writable addresses, general registers, `CPUID`/`XGETBV`/`MRS`/`STFLE` and the cipher queries as arbitrary answers of the hardware, `none` (a fault) where the instruction is missing or not permitted; the numbers of cpu_s390x.s are decoded by the formats of the Principles of Operation with their rules for registers; the Go detection makes its calls through these routines | stepwise execution; the detection is shown equal to the models of C70 and C95, whose hypotheses about results of calls are thereby discharged; function codes other than query are not modelled |
| C138 | the same lines as C88 with the `float64` times of the program (`ClockFpModel`): `bitClock`, `windowTime` and `bitClock/2` are rounded quotients, every sum and difference is rounded, the inputs `diff` are any floating-point values; the conversion of `diff` to `float64` is exact and left out; `fuel` bounds the turns of the inner loop and 3 is always enough | one sum has an error of at most 2⁻⁶⁰ s, times stay below 1/512 s, and the errors since the last tone change are counted (`Locked`); frames through C10 |
| C139 | `examples/ax25.go` from the bytes of `Read` to the number `diff` (`EarModel`): the buffer keeps stale bytes after a short read, 16-bit words, `float32` samples, the sliding block, and `Goertzel32` as in C98/C99/C103; then the clock and decoder of C138. The interpolation (lines 66-74) is never run, `interp` being 1, and is left out here (C155), as is printing (C154) | the two bins of a block with one change of tone, for each of 37 places of the change, 80 sub-sample positions and every phase, bounded by ball arithmetic with integers (`EarBall`, `EarCheck`; evaluated by the kernel in `EarRows`) and extended to all real positions; rounding by C98/C99; at most one change is in a block, so the windows show the tones in the order and at the times that C138 asks for. Quiet recordings: Bessel's inequality and C138_idle |
| C140 | `examples/dtmf_file.go` from the bytes of `Read` to the printed characters (`DialModel`: `TurnFp`, `FileFp`): stale bytes, 16-bit words, `float32` samples, the shifted block that keeps its windowed values, `FeedFp` of C103, counting of C87; the wait for the reader and the printing itself are left out | effective window, the product of up to five Hamming factors, and what each detector gets of each tone, bounded by ball arithmetic with integers on a grid of quarter hertz (`DialBall`, `DialCheck`, evaluated by the kernel), extended to all frequencies by the derivative (`DialGain`, `DialTone`); rounding by C98/C99/C101 and the product chain (`DialFp`); zeros stay zeros under every way of fusing; blocks to presses (`DialSeq`): nine confirmations in a row happen once per press whatever the partly filled blocks show. `C140_violated_hum`: a constant is printed as 4 |
| C141 | `IIR.filterBy`, `BQ.filterBy`, `BQ.filterF32By` (`Filt/FusedModel`), `fastAtan2By`, `fastAtan2_2By` (`Angle/AtanFused`): the models of C36, C38, C89 with each floating-point expression of the source handed to a parameter `ev`, of which only `Expr.Eval` is assumed; the demodulator is `fmDemodulate` of C57 run on expressions. With `ev = unfused` they are the earlier models (proved) | relative error algebra lifted to expressions (`NE` in `FpNearEval`) for the filters, running error bounds (`Bd` in `FpFma`) for the polynomials and products; then the arguments of C89, C90, C92, which are now corollaries. Partial: the ranges of those |
| C142 | `polar64`, `polarPi64` (`PolarFp`) over any `CMul binary64`; `math.Atan2` is a parameter with an assumed error | error of the complex product relative to the magnitudes, argument of a quotient near one (`arg_close`), rounded division by the rounded π. Tiny and huge products: negations by evaluating the model at `2^-600` and `2^600` |
| C143 | the designs `LowShelfBy`, `HighShelfBy`, `PeakingBy` (`GainFp`): the expressions of `dsp/biquad.go` in binary64 with every choice of fused products; sine and cosine within `2^-50`, `math.Pow(10, y)` within a relative `δ ≤ 2^-40`, `math.Sqrt` the rounded square root of the model (`C143_sqrt`) | relative errors through quotient, product and root; the coefficients of the shelves by the running error bounds of fused expressions (`Bd`) around the exact parts, then the distance of the parts |
| C144 | the nine designs (C108, C143) run by `BQ.filterBy` (C141), against the difference equation with the real coefficients of `newLowPass` … `newHighShelf` (C42) | `gain_jury`: an explicit amplification `1/κ²` from the Jury quantities, for conjugate and for real poles, applied to the rounded and to the exact coefficients; C141 bounds rounding while running, `solutions_near` the effect of wrong coefficients: the difference of the outputs solves the exact equation with a small input. `C144_run` is the statement for coefficients near any exact design with the `Margins`; the designs are instances. `C144_f32` (`DesignRun32`) carries every instance over to `FilterF32`, up to the last conversion |
| C145 | `Cpu/PrintModel`, `Cpu/PrintProps` | The text handed to `print` is modelled beside the result of `processOptions` (`C145_same` ties the two models). Proved: the text is the lines of the fields then the lines of the options (`C145_printed`), each line determined by a specification on the fields' text (`C145_field_unique`, `C145_option_unique`); strings without a `cpu.` field print nothing and change nothing (`C145_silent`). |
| C146 | `Borip/GoModel`: `ServerModel` with the destination, the UDP sockets, the replies to GO and STOP, and callbacks that send datagram by datagram | `C146_server`: every execution is one of `ServerModel`; one lemma on what a step can do to channel and callback of a connection (`step_change`), an invariant (`Paired`) and a relation on runs (`Moves`) give the three positive parts; the two violations hold in every such state (`C146_violated_running`) and for every number of sockets (`C146_violated_sockets`). The replies to other commands and the garbage collector are left out |
| C147 | `Borip/LoopModel`: `client.loop` through a `bufio.Reader` of 4096 bytes (`fill`, `ReadSlice`), the connection as a list of chunks; each line is served by `serveLine` (C68) | `readSlice_sliced`: what `ReadSlice` returns in terms of the bytes alone, by induction on what is left to read; every text is lines that fit and a tail (`lines_exist`); `C147_chunks`, `C147_lines_partial`, `C147_one_reply`; `C147_violated_long`. `Borip/WriteModel` is the loop on a connection that takes so many bytes and then returns an error from `Write`; `C147_delivered`, `C147_broken` by induction on the turns. `Borip/ChanModel` is the loop with `closeChan` (nil, open, closed), which panics when a closed channel is closed: `C147_channel` (up to a panic the same loop), `C147_channel_safe`, `C147_channel_panics`, `C147_violated_stop`. A stream can end between any two lines (`Rtl.ended`, `Srv.now`) |
| C148 | `VecModel` (C19) over binary32; `vMulBy` = `VMulC64` for any complex product, used with the products Go's compiler makes of `complex64`: parts widened to `float64`, two products and a sum or difference there, possibly fused, then narrowed | `VecFp`: a result is compared with the exact rational: nearest on the grid of float32, the even one of two (`FpTies`; `C148_unique`: this determines the number), or infinite beyond the threshold. Products of float32 are exact in float64, so fusing is without effect and the part is rounded twice, relative to itself. Partial for `VScaleC64` (panics on empty and on very long slices); violated by products rounded to float32 at each step |
| C149 | `Borip/SessionModel`: `Rd.readString` (bufio's `ReadString` on the chunks the connection delivers), `Rd.replies`, `clientSide` (`Dial` and the calls), `written` (what the client sends); the server is `serve` of C147 | Holds for calls with printable words and requests of at most 4096 bytes (`C149_session_partial`): both sides are functions of the bytes they get; the spec `converse` answers each call at once. `ReadString` returns the first line whatever its length and however it is cut; every reply of the server is one line (`handle_line`). `C149_progress`: the replies to the first calls are sent when their requests are there, and are a prefix of all replies, so the two sides do not wait for each other. `C149_broken`: any prefix of the reply bytes. `C149_violated_long`, `C149_violated_newline`: the full statement fails. `C149_channel_partial`: the same session with the server of `ChanModel`. `Borip/CloseModel`: a session that ends with `Close`; `C149_close_partial`. `Borip/SendModel`: the connection takes so many bytes of the requests and then fails; `C149_unsent`. `C149_ahead`: the server of `WriteModel`, whose connection takes so many bytes of the replies; the server is one call ahead of the client |
| C150 | `Borip/RaceModel`: the state machine of C66 with the reads, writes, lock and unlock, `go` statements, channel closings and receives of every step, in order, and steps for the commands that only use the device or the destination and for every device `deviceList` looks at | Happens-before is the transitive closure of the edges of the Go memory model on the list of events (`HB`). Invariant: every write to a device's fields comes before some unlocking of its mutex, every read too unless its owner has made it, and the owner knows all writes (`DevInv`); exclusive ownership is that of C66. So there is no race on anything but `closeChan` (`C150_no_race_partial`, `C150_where_partial`). On `closeChan` there is: the thread of a stream does nothing that orders another thread after it, so every access of the connection after a stream's end races (`C150_violated_always`, `C150_violated`) |
| C151 | the loop of `examples/dtmf_live.go` (`LiveModel`: `liveLoop` with panics, `LiveFp` with every operation rounded), for a list of events: a block of samples, with or without a signal, or an error of the read. The calls of portaudio before the loop and the deferred calls are left out | as C140, with the effective window of 1130 samples: sums over packed natural numbers (`DialSum`) of what each detector gets of each tone, evaluated by the kernel row by row (`LiveCheck`, `LiveRowsA`–`C`), extended to all frequencies and phases by the derivative (`LiveGain`, `LiveTone`), rounding (`LiveFp`), blocks to presses by the lemmas of `DialSeq`; the events by induction over the list (`live_run`, `live_turns`); `C151_hum` (`LiveHum`): the same sums for a constant, as `C140_violated_hum` |
| C152 | the choice of files by the ends of their names and by their constraints, in both notations (`BuildModel`, after the documentation of go/build); for each file of dsp and dsp/internal/cpu the names it declares, uses, leaves without a body, defines in assembly. Test files are left out | the choice depends on finitely many tags only (`selected_congr`), and for all targets on whether GOOS and GOARCH are one of 7 and 13 names (`holds_norm`); the remaining cases are evaluated by the kernel. `C152_violated`: four targets |
| C153 | `Borip/ChanModel` (the server with `closeChan`), `BorIP.close` of `Borip/ClientModel`, `clientClosed` of `Borip/CloseModel` | Partly: `C153_stopped_partial` by the invariant that the client's flag `running` is set while the channel is open (`step_running`, by cases on the call), and that a line which stops streams leaves no open channel; `C153_answered_partial` adds, from `C147_channel_safe`, when there is no panic. The device is never given back (`C153_violated_device`), and `Close` can make the server panic (`C153_violated_panic`) |
| C154 | `Ax25/PrintModel`: the lines that `examples/ax25.go` prints (lines 106-124, without `-v`), `hex.Dump` row by row | Partly: `C154_printed_partial` – a call sign without blanks, newlines and commas ends at the first of them; a row of the dump has its bytes at fixed places (`dumpRow_injective`) and its first word, unlike that of an address line, has no dash (`not_row`), so that the text splits in one way only. `C154_blanks`: the decoder never puts blanks into call signs; `C154_received_partial` follows. Commas in the call signs of repeaters make two transmissions look alike (`C154_violated`), newlines in call signs too (`C154_violated_newline`). `C154_heard` (`Ax25/EarPrint`): from the recording to the text, by `C139_received` |
| C155 | `Ax25/StretchModel`: the shift of the samples and the loops over bytes and `j` in `examples/ax25.go` (lines 61-77), writes with a bounds check, `interp` a parameter | By induction on the samples and on `j` with the slice split into the part written and the rest (`inner_eq`, `turns_eq`): `C155_places` in any arithmetic, `C155_line` in any field of characteristic zero, `C155_one` for the factor of the program, `C155_rounded` (`Ax25/StretchFp`) in single precision for factors up to 2^20, by the error of each addition |

## What is modelled and what is not

Each model file says in its header what it simplifies. Together:

* **dsp/ax25** – `hdlc.go`, `crc.go`, the `String` methods of `constants.go` and `hdlc.go` (C104). Bits are given one at a time; the slice `Frame.Info` shares
  memory with the decoder only in `MemModel`.
* **dsp/conversion.go, math32.go** – completely, law-free; slice capacities are not modelled (no routine
  re-slices beyond the length). Go permits a compiler to fuse `x*y + z` on some platforms (not on amd64);
  the law-free theorems that compare two code paths then hold for the unfused compilation. `Fp/FpFma` models
  fusing; C98 covers the Goertzel detectors with it, C100 the interpolators, C141 the filters, the arctangents and the
  demodulator; `Fp/FpProduct` models the ways to compile a complex product (C92, C93, C142).
* **amd64 assembly** – `conversion_amd64.s`, `conversion_avo_amd64.s`, `math32_amd64.s`: instruction by
  instruction at the level of registers as bytes or lanes. Trusted: the meaning given to each instruction
  in `AsmCore` (structured models, C20–C27) and `X86Model` (machine model, C110–C119; `Ui8tof32`, `Ui8toc64`, `I8tof32`, `Ui8toi16`, `Ui8toi16b`, `F32toi16`, `F32toi16ble`, `I16bleToF64`, `I16bleToF32`, `VScaleF32`, `VMaxF32`, `VMinF32`); that `ANDQ $0xfffffff0` sign-extends its immediate; that Go's `UCOMISS` operand order
  followed by `JLS` keeps the old value when the comparison fails or is unordered. Addresses and counters
  do not wrap around. Self-modifying or signal effects do not exist in the model.
* **386 assembly** – only jumps to portable code.
* **arm64 assembly** – all routines with a body: `Ui8tof32`, `VScaleF32`, `VMaxF32`, `VMinF32`. 64-bit
  addresses do not wrap around. In the structured models (C79, C80) the `WORD` directives are taken to be the instructions in
  the comments; C120 decodes them, and C121–C123 run the decoded instructions on the machine model `A64Model` (trusted: the meaning
  given to each instruction and bit format there).
* **32-bit ARM assembly** – the conversions and the decimating filters with 32-bit addresses; the rotation routines (in `RotModel` with natural numbers as addresses,
  in `RotArmModel` with 32-bit addresses) and the demodulator (exact arithmetic); `FastAtan2` and `FastAtan2_2` (binary32 and exact arithmetic); `VScaleF32`, `VAbsC64` and `VMaxF32` with addresses as natural
  numbers. These models take the `WORD` directives from the comments; C124 decodes them, and C125 and following run the decoded instructions on the machine
  model `A32Model` (trusted: the meaning of the instructions, the translation of Go mnemonics to instructions including the temporaries `F15` and `R11`). Trusted: NEON flushes subnormal operands and results; `FPSCR` stride bits 01 are
  reserved. `VMulC64xF32` only jumps to portable code; every line of `mathfixed_arm.s` is commented out. `VMinF32` has no body
  on this platform (and on 386), so a program that uses it does not link.
* **The IEEE model** – `Fp/FpModel` is not part of the repository. `Fp/FpSound` proves what it is trusted for:
  a finite result is a number of the format (sums, products and, in `Fp/FpDiv`, quotients), none is nearer to the exact value, ties go to the even one, and the
  result is infinite exactly from the midpoint above the largest number on. `Fp/FpErr` bounds the rounding error of one
  operation by 6e-8 of the exact result plus 1e-45.
* **dsp/mathfixed.go** – `int` is 64 bits in `FixedModel` and 32 bits in `Fixed32Model`. The table of `Atan2LUT` is a parameter
  satisfying `GoodLUT` (each entry is within 1.001 units, π/16384 each, of the exact value); C102 proves this of the table
  as computed with rounding, for a library arctangent accurate to 2^-30.
* **Exact arithmetic** – `FastModel`, the designs in `BiquadModel`, the constructors of Goertzel and SDFT,
  `InterpModel` (with rounding in `InterpFpModel`), `WindowModel` (with rounding in `WindowFpModel`), the ARM demodulator: no rounding, decimal constants taken exactly. Where an
  index is computed from a float (`goInt`) the conversion is that of amd64.
* **dsp/downsample.go** – counters are unbounded integers; sums in arbitrary arithmetic and (C109) with rounding.
* **borip** – characters stand for bytes. The library functions (`strconv`, `strings.TrimSpace`, `fmt`,
  `net`) are fields of `Lib`/`SLib`; theorems that need facts about them take `SLib.Laws` as a hypothesis,
  and `testSLib` satisfies these laws. The error and device texts contain no newline. One reply line per
  request.
* **boripserver** – `rtlDev.ReadAsync` returns at once; accesses to `closeChan` are atomic (C150: they are data
  races in Go, so real behaviour may be worse than the model); `seq` is a natural number;
  a stream may end between any two lines (`Rtl.ended`), the channel that ends it is in `ChanModel`; the `FREQ` query,
  which does not compile in the source, is modelled as meant; the tuner frequency in the device line is
  zero, as computed by the source.
* **dsp/internal/cpu** – `processOptions` with the text it prints, `doinit` of every architecture, `Name`; `Init` lists what runs
  before `main`, read off the source (no call of `Initialize` exists). What the capability words, registers
  and query instructions give is a parameter; the assembly that executes them is modelled (C137).
* **dsp/cpu_arm.go** – completely; of package regexp the operators in use, `.` taking a byte.
* **linking** – the tables in `LinkModel.lean` were read off the `.s` and `.go` files; build constraints, and what package internal/cpu declares and
  defines, are in `BuildModel.lean` (C152), with the rules of package go/build and its lists of known names as trusted.
* **dsp/dtmf** – `New`, `NewStandard`, `Feed`, `max` and the tables, in exact and in rounded arithmetic;
* **examples** – the main loops of `dtmf_file.go` and `dtmf_live.go` (of portaudio only that `Read` fills the buffer);
  of `ax25.go` the whole loop from `Read` to the text printed (C154) but for the flag `-v` (the interpolation of lines 66-74, which is never run, in C155), with exact
  times (C88) and in floating point (C138, C139). `ax25.go` does not
  compile against this repository (it passes `[]int` to `NewGoertzel`, which takes `[]uint64`, and `[]float32` to
  `Goertzel.Feed`, which takes `[]float64`); the program meant, with `Goertzel32`, is modelled.
  Of `borip/example/rx.go` everything (`polarDiscriminant`, which only comments call, in C142); `dsp/fuzz.go` completely.

## Trusted base

* The Lean 4.33.0 kernel and the statements of the definitions and theorems.
* Axioms: at most `propext`, `Classical.choice`, `Quot.sound`. No axioms added, no `sorry`,
  `native_decide` or `bv_decide`.
* Faithfulness of the hand-written models to the Go and assembly text (the code is not run here).
