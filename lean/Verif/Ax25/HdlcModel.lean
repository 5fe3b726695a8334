import Verif.Ax25.CrcModel

/-!
# Model of `dsp/ax25/hdlc.go` (and the types of `dsp/ax25/constants.go`)

Panics are explicit: a result `none : Option _` of `parseCall`, `parseAddress`, `processFrame` and
`feed` means "index out of range" in Go.
-/

namespace Verif.Ax25

/-- `Address`, dsp/ax25/hdlc.go:7-10. -/
structure Address where
  callsign : List Byte
  ssid : Nat
  deriving DecidableEq, Repr

/-- Zero value of `Address`. -/
def Address.zero : Address := ⟨[], 0⟩

/-- `FrameType`, dsp/ax25/constants.go:48-54. -/
inductive FrameType where
  | iFrame
  | sFrame
  | uFrame
  deriving DecidableEq, Repr

/-- `Frame`, dsp/ax25/hdlc.go:16-29. -/
structure Frame where
  source : Address
  destination : Address
  repeaters : List Address
  v1 : Bool
  command : Bool
  type : FrameType
  sendSeq : Nat
  recvSeq : Nat
  pollFinal : Bool
  unnumberedType : Byte
  supervisoryType : Byte
  pid : Byte
  info : List Byte
  deriving DecidableEq, Repr

/-- `Frame{V1: true, Command: false}` with all other fields zero, dsp/ax25/hdlc.go:73-76.
(`IFrame` is the zero value of `FrameType`.) -/
def Frame.init : Frame where
  source := .zero
  destination := .zero
  repeaters := []
  v1 := true
  command := false
  type := .iFrame
  sendSeq := 0
  recvSeq := 0
  pollFinal := false
  unnumberedType := 0
  supervisoryType := 0
  pid := 0
  info := []

/-- The loop of `parseAddress`, dsp/ax25/hdlc.go:48-54, with `k` iterations left: returns the call
sign `string(buf[:i])` and the buffer with the bytes shifted in place; `none` is an index panic. -/
def parseCall : Nat → List Byte → Option (List Byte × List Byte)
  | 0, buf => some ([], buf)
  | _ + 1, [] => none
  | k + 1, b :: rest =>
    let b' := b >>> 1
    if b' = 0x20#8 then some ([], b' :: rest)
    else
      match parseCall k rest with
      | none => none
      | some (c, r) => some (b' :: c, b' :: r)

/-- `parseAddress`, dsp/ax25/hdlc.go:47-56.  Returns the address and the mutated buffer. -/
def parseAddress (buf : List Byte) : Option (Address × List Byte) :=
  match parseCall 6 buf with
  | none => none
  | some (cs, buf') =>
    match buf'[6]? with
    | none => none
    | some s => some (⟨cs, ((s >>> 1) &&& 0xf#8).toNat⟩, buf')

/-- The repeater loop, dsp/ax25/hdlc.go:127-131.  `prev` is `buf[o-1]`, `rest` is `buf[o:]`; the
first argument bounds the number of iterations (each consumes seven bytes, the caller passes the
length of `rest`).  Returns the repeaters and the remaining `buf[o:]`. -/
def repeaterLoop : Nat → Byte → List Byte → Option (List Address × List Byte)
  | 0, _, _ => none
  | fuel + 1, prev, rest =>
    if prev &&& 1#8 = 0#8 ∧ rest.length > 7 then
      match parseAddress rest with
      | none => none
      | some (a, rest') =>
        match rest'[6]? with
        | none => none
        | some prev' =>
          match repeaterLoop fuel prev' (rest'.drop 7) with
          | none => none
          | some (as, r) => some (a :: as, r)
    else some ([], rest)

/-- `if i := …; i != 0 { dest = append(dest, i+0x20) }`, dsp/ax25/hdlc.go:83-100. -/
def flexChar (i : Byte) : List Byte := if i ≠ 0#8 then [i + 0x20#8] else []

/-- The six characters of the FlexNet header, dsp/ax25/hdlc.go:82-100, with Go's operator
precedence (`&` binds tighter than `|`). -/
def flexDest (b2 b3 b4 b5 b6 : Byte) : List Byte :=
  flexChar ((b2 >>> 2) &&& 0x2f#8) ++
  flexChar ((b2 <<< 4) ||| (((b3 >>> 4) &&& 0xf#8) &&& 0x3f#8)) ++
  flexChar ((b3 <<< 2) ||| (((b4 >>> 6) &&& 3#8) &&& 0x3f#8)) ++
  flexChar (b4 &&& 0x3f#8) ++
  flexChar ((b5 >>> 2) &&& 0x3f#8) ++
  flexChar (((b5 <<< 4) ||| ((b6 >>> 4) &&& 0xf#8)) &&& 0x3f#8)

/-- The header part of `processFrame`, dsp/ax25/hdlc.go:73-132, for `buf` without the FCS.
`none` is a panic, `some none` is `return nil`, `some (some (frame, rest))` continues with
`buf = rest`. -/
def processHeader (buf : List Byte) : Option (Option (Frame × List Byte)) :=
  match buf[1]? with
  | none => none
  | some b1 =>
    if b1 &&& 1#8 ≠ 0#8 then
      -- FlexNet header compression, lines 78-109
      match buf[2]?, buf[3]?, buf[4]?, buf[5]?, buf[6]? with
      | some b2, some b3, some b4, some b5, some b6 =>
        let dest := flexDest b2 b3 b4 b5 b6
        let frame := { Frame.init with v1 := false, command := decide (b1 &&& 2#8 ≠ 0#8) }
        let frame := if dest ≠ [] then
          { frame with destination := ⟨dest, (b6 &&& 0xf#8).toNat⟩ } else frame
        some (some (frame, buf.drop 7))
      | _, _, _, _, _ => none
    else if buf.length < 15 then
      -- lines 112-114
      some none
    else
      match buf[6]?, buf[13]? with
      | some b6, some b13 =>
        -- lines 119-122
        let frame := if b6 &&& 0x80#8 ≠ b13 &&& 0x80#8 then
          { Frame.init with v1 := false, command := decide (b6 &&& 0x80#8 ≠ 0#8) } else Frame.init
        -- line 124
        match parseAddress buf with
        | none => none
        | some (dst, buf1) =>
          -- line 125
          match parseAddress (buf1.drop 7) with
          | none => none
          | some (src, buf2) =>
            -- lines 127-131; `buf[13]` is index 6 of the source address
            match buf2[6]? with
            | none => none
            | some prev =>
              match repeaterLoop buf.length prev (buf2.drop 7) with
              | none => none
              | some (reps, rest) =>
                some (some ({ frame with destination := dst, source := src, repeaters := reps }, rest))
      | _, _ => none

/-- The control-field part of `processFrame`, dsp/ax25/hdlc.go:134-174. -/
def processControl (frame : Frame) : List Byte → Frame
  | [] => frame
  | c :: buf =>
    let frame := { frame with pollFinal := decide (c &&& 0x10#8 ≠ 0#8) }
    let frame :=
      if c &&& 1#8 = 0#8 then
        { frame with
          type := .iFrame
          sendSeq := ((c >>> 1) &&& 7#8).toNat
          recvSeq := ((c >>> 5) &&& 7#8).toNat }
      else if c &&& 2#8 ≠ 0#8 then
        { frame with type := .uFrame, unnumberedType := c &&& ~~~ 0x10#8 }
      else
        { frame with
          type := .sFrame
          supervisoryType := c &&& 0x0f#8
          recvSeq := ((c >>> 5) &&& 7#8).toNat }
    match buf with
    | [] => frame
    | p :: info =>
      -- `UI` is 0x03, dsp/ax25/constants.go:77
      if frame.type = .iFrame ∨ (frame.type = .uFrame ∧ frame.unnumberedType = 0x03#8) then
        { frame with pid := p, info := info }
      else frame

/-- `processFrame`, dsp/ax25/hdlc.go:58-175: `none` is a panic, `some none` is `nil`. -/
def processFrame (rxBuf : List Byte) : Option (Option Frame) :=
  if rxBuf.length < 10 then some none
  else if checkCrc rxBuf = false then some none
  else
    let buf := rxBuf.take (rxBuf.length - 2)
    match processHeader buf with
    | none => none
    | some none => some none
    | some (some (frame, rest)) => some (some (processControl frame rest))

/-- Decoder state `AX25`, dsp/ax25/hdlc.go:31-38 (`maxBufferSize` is the constant 512 set by
`NewDecoder`). -/
structure Dec where
  bitstream : Byte
  inFrame : Bool
  rxBitI : Nat
  rxBits : Byte
  rxBuf : List Byte
  deriving DecidableEq, Repr

/-- `maxBufferSize` as set by `NewDecoder`, dsp/ax25/hdlc.go:43. -/
def maxBufferSize : Nat := 512

/-- `NewDecoder`, dsp/ax25/hdlc.go:40-45. -/
def newDecoder : Dec := ⟨0, false, 0, 0, []⟩

/-- `Feed`, dsp/ax25/hdlc.go:178-221, up to the call of `processFrame`: the second component is the
buffer on which `processFrame` is called, if it is called.  `processFrame` changes nothing of the
decoder except bytes of `rxBuf`, which is truncated right after (line 188), so splitting the call
off is faithful. -/
def feedRaw (d : Dec) (bit : Int) : Dec × Option (List Byte) :=
  let bs : Byte := (d.bitstream <<< 1) ||| BitVec.ofInt 8 bit
  let d := { d with bitstream := bs }
  if bs &&& 0xff#8 = 0x7e#8 then
    ({ d with inFrame := true, rxBuf := [], rxBits := 0, rxBitI := 0 },
      if d.inFrame = true ∧ d.rxBuf.length > 2 then some d.rxBuf else none)
  else if bs &&& 0x7f#8 = 0x7f#8 then ({ d with inFrame := false }, none)
  else if d.inFrame = false then (d, none)
  else if bs &&& 0x3f#8 = 0x3e#8 then (d, none)
  else
    let rb := d.rxBits >>> 1
    let rb := if bit ≠ 0 then rb ||| 0x80#8 else rb
    let d := { d with rxBits := rb, rxBitI := d.rxBitI + 1 }
    if d.rxBitI = 8 then
      if d.rxBuf.length ≥ maxBufferSize then ({ d with inFrame := false }, none)
      else ({ d with rxBuf := d.rxBuf ++ [d.rxBits], rxBits := 0, rxBitI := 0 }, none)
    else (d, none)

/-- `Feed`, dsp/ax25/hdlc.go:178-221: `none` is a panic; otherwise the new state and the returned
frame (`none` for `nil`). -/
def feed (d : Dec) (bit : Int) : Option (Dec × Option Frame) :=
  match feedRaw d bit with
  | (d', none) => some (d', none)
  | (d', some buf) =>
    match processFrame buf with
    | none => none
    | some f => some (d', f)

/-- Feed a sequence of bits, collecting the buffers handed to `processFrame`, one entry per call. -/
def runRaw : Dec → List Int → Dec × List (Option (List Byte))
  | d, [] => (d, [])
  | d, b :: bits =>
    let (d1, o) := feedRaw d b
    let (d2, os) := runRaw d1 bits
    (d2, o :: os)

/-- Feed a sequence of bits, collecting the returned frames, one entry per call. -/
def run : Dec → List Int → Option (Dec × List (Option Frame))
  | d, [] => some (d, [])
  | d, b :: bits =>
    match feed d b with
    | none => none
    | some (d1, o) =>
      match run d1 bits with
      | none => none
      | some (d2, os) => some (d2, o :: os)

end Verif.Ax25
