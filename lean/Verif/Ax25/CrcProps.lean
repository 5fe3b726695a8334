import Verif.Ax25.CrcPeriod

/-!
# Properties C01, C02, C03: the AX.25 frame check

`checkCrc` models `checkCrcCcitt` (dsp/ax25/crc.go); the specification is the bit-serial
CRC-16/X.25 of `Verif.Ax25.CrcSpec`.
-/

namespace Verif.Ax25

open Spec

/-- **C01.** Processing any byte string through the lookup table, from any register value, leaves
the register that bit-serial CRC-16/X.25 computes; and no table access is out of range. -/
theorem C01_table_crc_is_bitserial_crc (bytes : List Byte) (r : BitVec 16) :
    bytes.foldl crcStep r = crcBits r (bytesBits bytes) ∧
      ∀ (crc : BitVec 16) (b : Byte),
        ((crc ^^^ b.zeroExtend 16) &&& 0xff#16).toNat < crcTable.length :=
  ⟨foldl_crcStep bytes r, crcStep_index_in_range⟩

/-- **C01.** The acceptance test is: the bit-serial register, preset to all ones, ends in the good
residue `0xf0b8`. -/
theorem C01_check_is_good_residue (bytes : List Byte) :
    checkCrc bytes = true ↔ crcBits 0xffff#16 (bytesBits bytes) = 0xf0b8#16 :=
  checkCrc_iff bytes

/-- Test vector (catalogue of CRC algorithms): CRC-16/X.25 of "123456789" is 0x906e. -/
example : fcs [0x31, 0x32, 0x33, 0x34, 0x35, 0x36, 0x37, 0x38, 0x39] = [0x6e#8, 0x90#8] := by
  decide +kernel

theorem bytesBits_append (a b : List Byte) : bytesBits (a ++ b) = bytesBits a ++ bytesBits b := by
  simp [bytesBits]

theorem bytesBits_pair (a b : Byte) : bytesBits [a, b] = byteBits a ++ byteBits b := by
  simp [bytesBits]

theorem good_residue_of_ones :
    crcBits 0xffff#16 (List.replicate 16 false) = 0xf0b8#16 := by decide +kernel

theorem xor_eq_ones_iff (r x : BitVec 16) : r ^^^ x = 0xffff#16 ↔ x = ~~~ r := by
  have e : (0xffff#16) = BitVec.allOnes 16 := by decide
  rw [e]
  constructor
  · intro h
    have := congrArg (fun v => r ^^^ v) h
    simp only [← BitVec.xor_assoc, BitVec.xor_self, BitVec.zero_xor] at this
    rw [this, BitVec.xor_allOnes]
  · intro h
    rw [h, ← BitVec.xor_allOnes, ← BitVec.xor_assoc, BitVec.xor_self, BitVec.zero_xor]

theorem check_trailer (payload : List Byte) (x : BitVec 16) :
    checkCrc (payload ++ [x.setWidth 8, (x >>> 8).setWidth 8]) = true ↔
      x = ~~~ crcBits 0xffff#16 (bytesBits payload) := by
  rw [checkCrc_iff, goodBits, bytesBits_append, crcBits_append, bytesBits_pair,
    crcBits_pack _ (by simp [byteBits_length]), pack_bytes, ← xor_eq_ones_iff]
  have hl : (byteBits (BitVec.setWidth 8 x) ++ byteBits (BitVec.setWidth 8 (x >>> 8))).length = 16 := by
    simp [byteBits_length]
  rw [hl, ← good_residue_of_ones]
  constructor
  · exact crcBits_zeros_inj 16 _ _
  · intro h; rw [h]

/-- **C02.** A frame is accepted exactly when its last two bytes are the frame check sequence of
the bytes before them: appending the FCS always succeeds and no other pair of bytes does. -/
theorem C02_accepted_iff_fcs (payload : List Byte) (a b : Byte) :
    checkCrc (payload ++ [a, b]) = true ↔ [a, b] = fcs payload := by
  let x : BitVec 16 := a.setWidth 16 ||| (b.setWidth 16 <<< 8)
  have ha : x.setWidth 8 = a := by
    ext i hi
    simp [x]
  have hb : (x >>> 8).setWidth 8 = b := by
    ext i hi
    have h1 : 8 + i < 16 := by omega
    have h2 : i < 16 := by omega
    simp [x, h1, h2, ← BitVec.getLsbD_eq_getElem, hi]
  have h := check_trailer payload x
  rw [ha, hb] at h
  rw [h]
  unfold fcs
  constructor
  · intro hx
    rw [← hx]
    show [a, b] = [x.setWidth 8, (x >>> 8).setWidth 8]
    rw [ha, hb]
  · intro hx
    simp only [List.cons.injEq, and_true] at hx
    obtain ⟨h1, h2⟩ := hx
    rw [split_register x, ha, hb, h1, h2, ← split_register]

/-- **C02.** In particular every payload with its FCS appended is accepted. -/
theorem C02_append_fcs_accepted (payload : List Byte) :
    checkCrc (payload ++ fcs payload) = true := by
  have h := (C02_accepted_iff_fcs payload
    ((~~~ crcBits 0xffff#16 (bytesBits payload)).setWidth 8)
    (((~~~ crcBits 0xffff#16 (bytesBits payload)) >>> 8).setWidth 8)).2 rfl
  exact h

/-- Non-vacuity: a concrete accepted frame, and the same frame with a wrong trailer. -/
example : checkCrc ([0x31, 0x32, 0x33, 0x34, 0x35, 0x36, 0x37, 0x38, 0x39] ++ [0x6e, 0x90]) = true ∧
    checkCrc ([0x31, 0x32, 0x33, 0x34, 0x35, 0x36, 0x37, 0x38, 0x39] ++ [0x6e, 0x91]) = false := by
  decide +kernel

/-! ### Error detection -/

/-- The error pattern between a sent and a received frame. -/
def errors (sent received : List Byte) : List Bool := corrupt (bytesBits sent) (bytesBits received)

/-- All flipped bits lie within 16 consecutive bit positions, and at least one bit is flipped. -/
def IsBurst16 (e : List Bool) : Prop :=
  ∃ a w b, e = List.replicate a false ++ w ++ List.replicate b false ∧ w.length ≤ 16 ∧ true ∈ w

/-- Exactly two bits are flipped, `d` positions apart. -/
def IsDouble (e : List Bool) (d : Nat) : Prop :=
  ∃ a b, 0 < d ∧ e = List.replicate a false ++ true :: List.replicate (d - 1) false ++
    true :: List.replicate b false

theorem accept_corrupted (f g : List Byte) (hl : g.length = f.length)
    (hf : checkCrc f = true) (hg : checkCrc g = true) : crcBits 0#16 (errors f g) = 0#16 := by
  rw [checkCrc_iff, goodBits] at hf hg
  have h := crcBits_xor (bytesBits f) (bytesBits g) (by rw [bytesBits_length, bytesBits_length, hl])
    0xffff#16 0xffff#16
  rw [BitVec.xor_self, hf, hg, BitVec.xor_self] at h
  exact h

/-- **C03 (bursts).** A valid frame corrupted within any 16 consecutive bits is rejected.
Single-bit errors are bursts of length one. -/
theorem C03_burst_detected (f g : List Byte) (hl : g.length = f.length) (hf : checkCrc f = true)
    (he : IsBurst16 (errors f g)) : checkCrc g = false := by
  by_contra hg
  have h := accept_corrupted f g hl hf (by simpa using hg)
  obtain ⟨a, w, b, he, hw, ht⟩ := he
  rw [he, crcBits_append, crcBits_append, crcBits_zeros_zero] at h
  have h2 := crcBits_zeros_eq_zero b _ h
  rw [crcBits_pack w hw, BitVec.zero_xor] at h2
  exact pack_eq_zero w hw (crcBits_zeros_eq_zero _ _ h2) ht

/-- Parity of a register. -/
def parity (r : BitVec 16) : Bool :=
  (List.range 16).foldl (fun acc i => acc ^^ r.getLsbD i) false

theorem parity_xor (r s : BitVec 16) : parity (r ^^^ s) = (parity r ^^ parity s) := by
  have key : ∀ (l : List Nat) (a b : Bool),
      l.foldl (fun acc i => acc ^^ (r ^^^ s).getLsbD i) (a ^^ b) =
        (l.foldl (fun acc i => acc ^^ r.getLsbD i) a ^^ l.foldl (fun acc i => acc ^^ s.getLsbD i) b) := by
    intro l
    induction l with
    | nil => intros; rfl
    | cons i l ih =>
      intro a b
      simp only [List.foldl_cons]
      rw [← ih, BitVec.getLsbD_xor]
      congr 1
      cases a <;> cases b <;> cases r.getLsbD i <;> cases s.getLsbD i <;> rfl
  exact key (List.range 16) false false

theorem parity_shift (r : BitVec 16) : parity (r >>> 1) = (parity r ^^ r.getLsbD 0) := by
  have hr : List.range 16 = [0, 1, 2, 3, 4, 5, 6, 7, 8, 9, 10, 11, 12, 13, 14, 15] := rfl
  have h16 : r.getLsbD 16 = false := BitVec.getLsbD_of_ge r 16 (by decide)
  simp only [parity, hr, List.foldl_cons, List.foldl_nil, BitVec.getLsbD_ushiftRight,
    Bool.false_xor, Nat.reduceAdd, h16, Bool.xor_false]
  generalize r.getLsbD 0 = x0
  cases x0 <;> simp

theorem parity_crcBit (r : BitVec 16) (b : Bool) : parity (crcBit r b) = (parity r ^^ b) := by
  unfold crcBit
  have hp : parity 0x8408#16 = true := by decide
  cases h : r.getLsbD 0 <;> cases b <;>
    simp [parity_xor, parity_shift, hp, -BitVec.getLsbD_eq_getElem, h]

theorem parity_crcBits (e : List Bool) (r : BitVec 16) :
    parity (crcBits r e) = (parity r ^^ decide (e.count true % 2 = 1)) := by
  induction e generalizing r with
  | nil => simp [crcBits]
  | cons b e ih =>
    rw [crcBits_cons, ih, parity_crcBit]
    cases b
    · simp
    · simp only [List.count_cons_self]
      have : e.count true % 2 = 0 ∨ e.count true % 2 = 1 := by omega
      rcases this with h | h
      · have : (e.count true + 1) % 2 = 1 := by omega
        simp [h, this]
      · have : (e.count true + 1) % 2 = 0 := by omega
        simp [h, this]

/-- **C03 (odd weight).** A valid frame with an odd number of flipped bits, anywhere, is
rejected. -/
theorem C03_odd_detected (f g : List Byte) (hl : g.length = f.length) (hf : checkCrc f = true)
    (he : (errors f g).count true % 2 = 1) : checkCrc g = false := by
  by_contra hg
  have h := accept_corrupted f g hl hf (by simpa using hg)
  have hp := parity_crcBits (errors f g) 0#16
  rw [h, he] at hp
  revert hp
  decide

/-- **C03 (two bits).** A valid frame with exactly two flipped bits less than 32767 positions apart
is rejected. -/
theorem C03_double_detected (f g : List Byte) (hl : g.length = f.length) (hf : checkCrc f = true)
    (d : Nat) (hd : d < 32767) (he : IsDouble (errors f g) d) : checkCrc g = false := by
  by_contra hg
  have h := accept_corrupted f g hl hf (by simpa using hg)
  obtain ⟨a, b, h0, he⟩ := he
  rw [he, crcBits_append, crcBits_append, crcBits_zeros_zero, crcBits_cons, crcBits_cons] at h
  have h2 := crcBits_zeros_eq_zero b _ h
  rw [crcBit_reg] at h2
  have h3 := crcBit_false_eq_zero _ h2
  rw [if_pos rfl, crcBits_zeros_iterate] at h3
  have h4 : z^[d - 1] (crcBit 0#16 true) = 1#16 := by
    have := congrArg (· ^^^ 1#16) h3
    simpa [BitVec.xor_assoc] using this
  have h5 : crcBit 0#16 true = z 1#16 := by decide
  rw [h5, ← Function.iterate_succ_apply] at h4
  exact z_iterate_ne_one (d - 1).succ (by omega) (by omega) h4

/-- The bound 32767 in `C03_double_detected` is sharp: the pattern `10…01` of length 32768 has a
zero CRC, so it is not detected. -/
theorem C03_double_bound_sharp :
    crcBits 0#16 (true :: List.replicate 32766 false ++ [true]) = 0#16 := by
  rw [List.cons_append, crcBits_cons, crcBits_append, crcBits_zeros_iterate]
  have h5 : crcBit 0#16 true = z 1#16 := by decide
  rw [h5, ← Function.iterate_succ_apply]
  have := z_period
  rw [show (32766 : Nat).succ = 32767 from rfl, z_period]
  decide

/-- Non-vacuity: the frame "123456789" ++ FCS with one flipped bit in the third byte is a burst. -/
example :
    let f : List Byte := [0x31, 0x32, 0x33, 0x34, 0x35, 0x36, 0x37, 0x38, 0x39, 0x6e, 0x90]
    let g : List Byte := [0x31, 0x32, 0x37, 0x34, 0x35, 0x36, 0x37, 0x38, 0x39, 0x6e, 0x90]
    g.length = f.length ∧ checkCrc f = true ∧ IsBurst16 (errors f g) ∧
      (errors f g).count true % 2 = 1 := by
  refine ⟨rfl, by decide +kernel, ⟨18, [true], 69, by decide +kernel, by decide, by decide⟩, by decide +kernel⟩

/-- Non-vacuity: two flipped bits, 41 positions apart. -/
example :
    let f : List Byte := [0x31, 0x32, 0x33, 0x34, 0x35, 0x36, 0x37, 0x38, 0x39, 0x6e, 0x90]
    let g : List Byte := [0x30, 0x32, 0x33, 0x34, 0x35, 0x34, 0x37, 0x38, 0x39, 0x6e, 0x90]
    g.length = f.length ∧ checkCrc f = true ∧ IsDouble (errors f g) 41 :=
  ⟨rfl, by decide +kernel, 0, 46, by decide, by decide +kernel⟩

end Verif.Ax25
