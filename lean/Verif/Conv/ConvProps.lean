import Verif.Conv.ConvLemmas
import Verif.Conv.VecModel

/-!
# Properties C14, C15, C17, C18, C19, C28: portable conversions and vector routines

`fill m b n g` is the memory `m` with cells `b … b+n-1` set to `g 0 … g (n-1)`; the theorems say
that a routine returns (does not panic) and its result memory is exactly such a `fill`.
-/

namespace Verif.Conv
variable {F D : Type}

/-! ## C14 -/

/-- `ui8toi16` fills the common prefix with the widened samples, and nothing else. -/
theorem C14_ui8toi16 (input : Slice) (im : Nat → BitVec 8) (output : Slice) (om : Nat → BitVec 16) :
    ui8toi16 input im output om = some (fill om output.base (min output.len input.len)
      fun i => BitVec.ofInt 16 (widen (im (input.base + i)).toNat)) := by
  simp only [ui8toi16, minIf, Option.bind_eq_bind]
  rw [take_ok (Nat.min_le_right _ _)]
  refine forRange_states (S := fun i => fill om output.base i
      fun i => BitVec.ofInt 16 (widen (im (input.base + i)).toNat)) (fill_zero ..) ?_
  intro i hi
  rw [read_ok hi, Option.bind_some, write_ok (by omega)]
  rw [update_fill]
  exact widen_word _

/-- `ui8toi16b` writes both octets of the widened samples, least significant first.  The input may
lie anywhere except inside the written part of the output. -/
theorem C14_ui8toi16b (input output : Slice) (m : Nat → BitVec 8)
    (hsep : input.base + min (output.len / 2) input.len ≤ output.base ∨
      output.base + 2 * min (output.len / 2) input.len ≤ input.base) :
    ui8toi16b input output m = some (fill m output.base (2 * min (output.len / 2) input.len)
      fun j => octet (j % 2) (BitVec.ofInt 16 (widen (m (input.base + j / 2)).toNat)).toNat) := by
  simp only [ui8toi16b, minIf, Option.bind_eq_bind]
  rw [take_ok (Nat.min_le_right _ _)]
  refine forRange_states (S := fun i => fill m output.base (2 * i)
      fun j => octet (j % 2) (BitVec.ofInt 16 (widen (m (input.base + j / 2)).toNat)).toNat)
      (fill_zero ..) ?_
  intro i hi
  have e : ∀ g, fill m output.base (2 * i) g (input.base + i) = m (input.base + i) :=
    fun g => fill_out (by omega)
  rw [read_ok hi, Option.bind_some, write_ok (by omega), Option.bind_some, write_ok (by omega)]
  simp only [e]
  rw [show i * 2 = 2 * i by omega, ← Nat.add_assoc, update_fill, Nat.add_assoc, update_fill]
  · rfl
  · rw [show (2 * i + 1) % 2 = 1 by omega, show (2 * i + 1) / 2 = i by omega]
    exact (widen_octets _).2.symm
  · rw [show (2 * i) % 2 = 0 by omega, show (2 * i) / 2 = i by omega]
    exact (widen_octets _).1.symm

/-- The conversion is strictly increasing as a signed 16-bit value, 128 becomes 0 and the end
values are the end values of the range (−32640 and 32639). -/
theorem C14_monotone_full_scale :
    (∀ v w : BitVec 8, v.toNat < w.toNat →
      (BitVec.ofInt 16 (widen v.toNat)).toInt < (BitVec.ofInt 16 (widen w.toNat)).toInt) ∧
    (BitVec.ofInt 16 (widen 128)).toInt = 0 ∧ (BitVec.ofInt 16 (widen 0)).toInt = -32640 ∧
    (BitVec.ofInt 16 (widen 255)).toInt = 32639 := by
  refine ⟨?_, by decide, by decide, by decide⟩
  intro v w h
  rw [widen_toInt, widen_toInt]
  simp only [widen]
  split <;> split <;> omega

/-- Three samples into a longer output at another address: only three cells change. -/
example : (ui8toi16 ⟨5, 3⟩ (fun i => BitVec.ofNat 8 (i * 25)) ⟨2, 7⟩ (fun _ => 9)).map
      (fun m => (List.range 8).map fun i => (m i).toInt)
    = some [9, 9, -515, 5654, 12079, 9, 9, 9] := by
  decide +kernel

/-- Disjoint byte slices as the second theorem requires. -/
example : (3 : Nat) + min (6 / 2) 3 ≤ 10 ∧
    (ui8toi16b ⟨3, 3⟩ ⟨10, 6⟩ (fun i => BitVec.ofNat 8 (i * 40))).map
      (fun m => (List.range 7).map fun i => (m (10 + i)).toNat)
    = some [248, 248, 32, 32, 72, 72, 128] := by
  decide +kernel

/-! ## C19: the common prefix, and nothing else -/

/-- `ui8tof32`: not for an empty common prefix, see `C19_violated_ui8tof32`. -/
theorem C19_ui8tof32_partial (o : FloatOps F D) (input : Slice) (im : Nat → BitVec 8) (output : Slice)
    (om : Nat → F) (hi : 0 < input.len) (ho : 0 < output.len) :
    ui8tof32 o input im output om = some (fill om output.base (min input.len output.len)
      fun i => o.ofInt (((im (input.base + i)).toNat : Int) - 128)) := by
  have h0 : ¬ min input.len output.len = 0 := by omega
  simp only [ui8tof32, minIf, Option.bind_eq_bind, if_neg h0]
  rw [take_ok (Nat.min_le_left _ _), read_ok (by omega)]
  refine forRange_states (S := fun i => fill om output.base i
      fun i => o.ofInt (((im (input.base + i)).toNat : Int) - 128)) (fill_zero ..) ?_
  intro i hi
  rw [read_ok hi, Option.bind_some, write_ok (by omega), update_fill _ _ _ _ _ rfl]

/-- `ui8tof32` panics (`output[n-1]` with `n = 0`) whenever one of its slices is empty. -/
theorem C19_violated_ui8tof32 (o : FloatOps F D) (input : Slice) (im : Nat → BitVec 8)
    (output : Slice) (om : Nat → F) :
    ui8tof32 o input im output om = none ↔ input.len = 0 ∨ output.len = 0 := by
  constructor
  · intro h
    by_contra hc
    rw [C19_ui8tof32_partial o input im output om (by omega) (by omega)] at h
    cases h
  · intro h
    have h0 : min input.len output.len = 0 := by omega
    simp [ui8tof32, minIf, h0]

/-- `i8tof32`. -/
theorem C19_i8tof32 (o : FloatOps F D) (input : Slice) (im : Nat → BitVec 8) (output : Slice)
    (om : Nat → F) :
    i8tof32 o input im output om = some (fill om output.base (min input.len output.len)
      fun i => o.ofInt (im (input.base + i)).toInt) := by
  simp only [i8tof32, minIf, Option.bind_eq_bind]
  rw [take_ok (Nat.min_le_left _ _)]
  refine forRange_states (S := fun i => fill om output.base i
      fun i => o.ofInt (im (input.base + i)).toInt) (fill_zero ..) ?_
  intro i hi
  rw [read_ok hi, Option.bind_some, write_ok (by omega), update_fill _ _ _ _ _ rfl]

/-- `ui8toc64`. -/
theorem C19_ui8toc64 (o : FloatOps F D) (input : Slice) (im : Nat → BitVec 8) (output : Slice)
    (om : Nat → F × F) :
    ui8toc64 o input im output om = some (fill om output.base (min (input.len / 2) output.len)
      fun i => (o.ofInt (((im (input.base + 2 * i)).toNat : Int) - 128),
        o.ofInt (((im (input.base + 2 * i + 1)).toNat : Int) - 128))) := by
  simp only [ui8toc64, minIf, Option.bind_eq_bind]
  refine forRange_states (S := fun i => fill om output.base i
      fun i => (o.ofInt (((im (input.base + 2 * i)).toNat : Int) - 128),
        o.ofInt (((im (input.base + 2 * i + 1)).toNat : Int) - 128))) (fill_zero ..) ?_
  intro i hi
  rw [read_ok (by omega), Option.bind_some, read_ok (by omega), Option.bind_some, write_ok (by omega),
    update_fill]
  rw [Nat.mul_comm i 2, Nat.add_assoc]

/-- `I8toc64`. -/
theorem C19_i8toc64 (o : FloatOps F D) (input : Slice) (im : Nat → BitVec 8) (output : Slice)
    (om : Nat → F × F) :
    i8toc64 o input im output om = some (fill om output.base (min (input.len / 2) output.len)
      fun i => (o.ofInt (im (input.base + 2 * i)).toInt, o.ofInt (im (input.base + 2 * i + 1)).toInt)) := by
  simp only [i8toc64, minIf, Option.bind_eq_bind]
  refine forRange_states (S := fun i => fill om output.base i
      fun i => (o.ofInt (im (input.base + 2 * i)).toInt, o.ofInt (im (input.base + 2 * i + 1)).toInt))
      (fill_zero ..) ?_
  intro i hi
  rw [read_ok (by omega), Option.bind_some, read_ok (by omega), Option.bind_some, write_ok (by omega),
    update_fill]
  rw [Nat.mul_comm i 2, Nat.add_assoc]

/-- `C64toi8`. -/
theorem C19_c64toi8 (o : FloatOps F D) (input : Slice) (im : Nat → F × F) (output : Slice)
    (om : Nat → BitVec 8) :
    c64toi8 o input im output om = some (fill om output.base (2 * min (output.len / 2) input.len)
      fun j => if j % 2 = 0 then o.toI8 (im (input.base + j / 2)).1
        else o.toI8 (im (input.base + j / 2)).2) := by
  simp only [c64toi8, minIf, Option.bind_eq_bind]
  rw [take_ok (Nat.min_le_right _ _)]
  refine forRange_states (S := fun i => fill om output.base (2 * i)
      fun j => if j % 2 = 0 then o.toI8 (im (input.base + j / 2)).1
        else o.toI8 (im (input.base + j / 2)).2) (fill_zero ..) ?_
  intro i hi
  rw [read_ok hi, Option.bind_some, write_ok (by omega), Option.bind_some, write_ok (by omega)]
  rw [show i * 2 = 2 * i by omega, ← Nat.add_assoc, update_fill, Nat.add_assoc, update_fill]
  · rfl
  · rw [show (2 * i + 1) % 2 = 1 by omega, show (2 * i + 1) / 2 = i by omega]; rfl
  · rw [show (2 * i) % 2 = 0 by omega, show (2 * i) / 2 = i by omega]; rfl

/-- `f32toi16`. -/
theorem C19_f32toi16 (o : FloatOps F D) (input : Slice) (im : Nat → F) (output : Slice)
    (om : Nat → BitVec 16) (scale : F) :
    f32toi16 o input im output om scale = some (fill om output.base (min output.len input.len)
      fun i => o.toI16 (o.mul (im (input.base + i)) scale)) := by
  simp only [f32toi16, minIf, Option.bind_eq_bind]
  rw [take_ok (Nat.min_le_right _ _)]
  refine forRange_states (S := fun i => fill om output.base i
      fun i => o.toI16 (o.mul (im (input.base + i)) scale)) (fill_zero ..) ?_
  intro i hi
  rw [read_ok hi, Option.bind_some, write_ok (by omega), update_fill _ _ _ _ _ rfl]

/-- `f32toi16ble`. -/
theorem C19_f32toi16ble (o : FloatOps F D) (input : Slice) (im : Nat → F) (output : Slice)
    (om : Nat → BitVec 8) (scale : F) :
    f32toi16ble o input im output om scale
      = some (fill om output.base (2 * min (output.len / 2) input.len)
      fun j => octet (j % 2) (o.toI16 (o.mul (im (input.base + j / 2)) scale)).toNat) := by
  simp only [f32toi16ble, minIf, Option.bind_eq_bind]
  rw [take_ok (Nat.min_le_right _ _)]
  refine forRange_states (S := fun i => fill om output.base (2 * i)
      fun j => octet (j % 2) (o.toI16 (o.mul (im (input.base + j / 2)) scale)).toNat) (fill_zero ..) ?_
  intro i hi
  rw [read_ok hi, Option.bind_some, write_ok (by omega), Option.bind_some, write_ok (by omega)]
  rw [show i * 2 = 2 * i by omega, ← Nat.add_assoc, update_fill, Nat.add_assoc, update_fill]
  · rfl
  · rw [show (2 * i + 1) % 2 = 1 by omega, show (2 * i + 1) / 2 = i by omega]
    exact high_octet _
  · rw [show (2 * i) % 2 = 0 by omega, show (2 * i) / 2 = i by omega]
    exact low_octet _

/-- `i16ToBLE`; the octet at the higher address is the more significant one. -/
theorem C19_i16ToBLE (input : Slice) (im : Nat → BitVec 16) (output : Slice) (om : Nat → BitVec 8) :
    i16ToBLE input im output om = some (fill om output.base (2 * min input.len (output.len / 2))
      fun j => octet (j % 2) (im (input.base + j / 2)).toNat) := by
  simp only [i16ToBLE, minIf, Option.bind_eq_bind]
  rw [take_ok (Nat.min_le_left _ _)]
  refine forRange_states (S := fun i => fill om output.base (2 * i)
      fun j => octet (j % 2) (im (input.base + j / 2)).toNat) (fill_zero ..) ?_
  intro i hi
  rw [read_ok hi, Option.bind_some, write_ok (by omega), Option.bind_some, write_ok (by omega)]
  rw [show i * 2 = 2 * i by omega, ← Nat.add_assoc, update_fill, Nat.add_assoc, update_fill]
  · rfl
  · rw [show (2 * i + 1) % 2 = 1 by omega, show (2 * i + 1) / 2 = i by omega]
    exact high_octet_s _
  · rw [show (2 * i) % 2 = 0 by omega, show (2 * i) / 2 = i by omega]
    exact low_octet _

/-- `i16bleToF64`. -/
theorem C19_i16bleToF64 (o : FloatOps F D) (input : Slice) (im : Nat → BitVec 8) (output : Slice)
    (om : Nat → D) (scale : D) :
    i16bleToF64 o input im output om scale = some (fill om output.base (min (input.len / 2) output.len)
      fun i => o.mulD (o.ofIntD (le16 (im (input.base + 2 * i)).toNat
        (im (input.base + 2 * i + 1)).toNat)) scale) := by
  simp only [i16bleToF64, minIf, Option.bind_eq_bind]
  rw [take_ok (Nat.min_le_right _ _)]
  refine forRange_states (S := fun i => fill om output.base i
      fun i => o.mulD (o.ofIntD (le16 (im (input.base + 2 * i)).toNat
        (im (input.base + 2 * i + 1)).toNat)) scale) (fill_zero ..) ?_
  intro i hi
  rw [read_ok (by omega), Option.bind_some, read_ok (by omega), Option.bind_some, write_ok (by omega),
    update_fill]
  rw [le16_word, Nat.mul_comm i 2, Nat.add_assoc]

/-- `i16bleToF32`. -/
theorem C19_i16bleToF32 (o : FloatOps F D) (input : Slice) (im : Nat → BitVec 8) (output : Slice)
    (om : Nat → F) (scale : F) :
    i16bleToF32 o input im output om scale = some (fill om output.base (min (input.len / 2) output.len)
      fun i => o.mul (o.ofInt (le16 (im (input.base + 2 * i)).toNat
        (im (input.base + 2 * i + 1)).toNat)) scale) := by
  simp only [i16bleToF32, minIf, Option.bind_eq_bind]
  rw [take_ok (Nat.min_le_right _ _)]
  refine forRange_states (S := fun i => fill om output.base i
      fun i => o.mul (o.ofInt (le16 (im (input.base + 2 * i)).toNat
        (im (input.base + 2 * i + 1)).toNat)) scale) (fill_zero ..) ?_
  intro i hi
  rw [read_ok (by omega), Option.bind_some, read_ok (by omega), Option.bind_some, write_ok (by omega),
    update_fill]
  rw [le16_word, Nat.mul_comm i 2, Nat.add_assoc]

/-- `I32bleToF32`. -/
theorem C19_i32bleToF32 (o : FloatOps F D) (input : Slice) (im : Nat → BitVec 8) (output : Slice)
    (om : Nat → F) (scale : F) :
    i32bleToF32 o input im output om scale = some (fill om output.base (min (input.len / 4) output.len)
      fun i => o.mul (o.ofInt (le32 (im (input.base + 4 * i)).toNat (im (input.base + 4 * i + 1)).toNat
        (im (input.base + 4 * i + 2)).toNat (im (input.base + 4 * i + 3)).toNat)) scale) := by
  simp only [i32bleToF32, minIf, Option.bind_eq_bind]
  rw [take_ok (Nat.min_le_right _ _)]
  refine forRange_states (S := fun i => fill om output.base i
      fun i => o.mul (o.ofInt (le32 (im (input.base + 4 * i)).toNat (im (input.base + 4 * i + 1)).toNat
        (im (input.base + 4 * i + 2)).toNat (im (input.base + 4 * i + 3)).toNat)) scale)
      (fill_zero ..) ?_
  intro i hi
  rw [read_ok (by omega), Option.bind_some, read_ok (by omega), Option.bind_some, read_ok (by omega),
    Option.bind_some, read_ok (by omega), Option.bind_some, write_ok (by omega), update_fill]
  rw [le32_word, Nat.mul_comm i 4]
  simp only [Nat.add_assoc]

/-- `F32Tof32ble`. -/
theorem C19_f32Tof32ble (o : FloatOps F D) (input : Slice) (im : Nat → F) (output : Slice)
    (om : Nat → BitVec 8) :
    f32Tof32ble o input im output om = some (fill om output.base (4 * min (output.len / 4) input.len)
      fun j => octet (j % 4) (o.bits (im (input.base + j / 4))).toNat) := by
  simp only [f32Tof32ble, minIf, Option.bind_eq_bind]
  rw [take_ok (Nat.min_le_right _ _)]
  refine forRange_states (S := fun i => fill om output.base (4 * i)
      fun j => octet (j % 4) (o.bits (im (input.base + j / 4))).toNat) (fill_zero ..) ?_
  intro i hi
  have p := put_octets (o.bits (im (input.base + i)))
  rw [read_ok hi, Option.bind_some, drop_ok (by omega), Option.bind_some]
  simp only [putUint32, Option.bind_eq_bind]
  rw [read_ok (by dsimp only; omega), Option.bind_some, write_ok (by dsimp only; omega), Option.bind_some,
    write_ok (by dsimp only; omega), Option.bind_some, write_ok (by dsimp only; omega), Option.bind_some,
    write_ok (by dsimp only; omega)]
  dsimp only
  rw [show i * 4 = 4 * i by omega, Nat.add_zero, update_fill, Nat.add_assoc, update_fill,
    show output.base + 4 * i + 2 = output.base + (4 * i + 1 + 1) by omega, update_fill,
    show output.base + 4 * i + 3 = output.base + (4 * i + 1 + 1 + 1) by omega, update_fill]
  · rfl
  · rw [show (4 * i + 1 + 1 + 1) % 4 = 3 by omega, show (4 * i + 1 + 1 + 1) / 4 = i by omega]
    exact p.2.2.2
  · rw [show (4 * i + 1 + 1) % 4 = 2 by omega, show (4 * i + 1 + 1) / 4 = i by omega]
    exact p.2.2.1
  · rw [show (4 * i + 1) % 4 = 1 by omega, show (4 * i + 1) / 4 = i by omega]
    exact p.2.1
  · rw [show (4 * i) % 4 = 0 by omega, show (4 * i) / 4 = i by omega]
    exact p.1

/-- A state in which two of three cells are written, with nonempty slices (hypotheses of
`C19_ui8tof32_partial`). -/
example : (ui8tof32 (F := Int) (D := Unit) ⟨id, fun _ => (), (· * ·), (· + ·), (· - ·), fun _ _ => (),
      fun _ => 0, fun _ => 0, fun _ => 0, id⟩ ⟨1, 2⟩ (fun i => BitVec.ofNat 8 (100 + i)) ⟨0, 3⟩
      (fun _ => 7)).map (fun m => (List.range 3).map m) = some [-27, -26, 7] := by decide +kernel

/-! ## Round trips: C15 and C17 -/

/-- C15.  Writing samples as little-endian bytes and reading the bytes back gives, for either float
width, exactly the conversion of the original sample times the scale: no sample changes. -/
theorem C15_roundtrip (o : FloatOps F D) (n : Nat) (xs bs fs ds : Nat) (x : Nat → BitVec 16)
    (bm : Nat → BitVec 8) (fm : Nat → F) (dm : Nat → D) (scale : F) (scaleD : D) :
    ∃ bm', i16ToBLE ⟨xs, n⟩ x ⟨bs, 2 * n⟩ bm = some bm' ∧
      i16bleToF32 o ⟨bs, 2 * n⟩ bm' ⟨fs, n⟩ fm scale
        = some (fill fm fs n fun i => o.mul (o.ofInt (x (xs + i)).toInt) scale) ∧
      i16bleToF64 o ⟨bs, 2 * n⟩ bm' ⟨ds, n⟩ dm scaleD
        = some (fill dm ds n fun i => o.mulD (o.ofIntD (x (xs + i)).toInt) scaleD) := by
  refine ⟨_, C19_i16ToBLE .., ?_, ?_⟩
  · rw [C19_i16bleToF32]
    simp only [show 2 * n / 2 = n by omega, Nat.min_self]
    congr 1
    apply fill_congr
    intro i hi
    rw [fill_in (by omega), Nat.add_assoc, fill_in (by omega), show 2 * i % 2 = 0 by omega,
      show 2 * i / 2 = i by omega, show (2 * i + 1) % 2 = 1 by omega,
      show (2 * i + 1) / 2 = i by omega, le16_octets]
  · rw [C19_i16bleToF64]
    simp only [show 2 * n / 2 = n by omega, Nat.min_self]
    congr 1
    apply fill_congr
    intro i hi
    rw [fill_in (by omega), Nat.add_assoc, fill_in (by omega), show 2 * i % 2 = 0 by omega,
      show 2 * i / 2 = i by omega, show (2 * i + 1) % 2 = 1 by omega,
      show (2 * i + 1) / 2 = i by omega, le16_octets]

/-- The bytes of the sample −2 and 258: the second byte is the high byte. -/
example : (i16ToBLE ⟨0, 2⟩ (fun i => if i = 0 then -2 else 258) ⟨0, 4⟩ (fun _ => 0)).map
    (fun m => (List.range 4).map fun i => (m i).toNat) = some [254, 255, 2, 1] := by decide +kernel

/-- C17.  The four bytes written for each float reassemble, least significant first, to its
IEEE bit pattern, for every bit pattern. -/
theorem C17_bits_roundtrip (o : FloatOps F D) (n xs bs : Nat) (x : Nat → F) (bm : Nat → BitVec 8) :
    ∃ bm', f32Tof32ble o ⟨xs, n⟩ x ⟨bs, 4 * n⟩ bm = some bm' ∧
      (∀ i, i < n → (bm' (bs + 4 * i)).toNat + 256 * (bm' (bs + 4 * i + 1)).toNat
        + 65536 * (bm' (bs + 4 * i + 2)).toNat + 16777216 * (bm' (bs + 4 * i + 3)).toNat
          = (o.bits (x (xs + i))).toNat) ∧
      (∀ a, a < bs ∨ bs + 4 * n ≤ a → bm' a = bm a) := by
  refine ⟨_, C19_f32Tof32ble .., ?_, ?_⟩
  · intro i hi
    simp only [show 4 * n / 4 = n by omega, Nat.min_self]
    rw [Nat.add_assoc bs (4 * i) 1, Nat.add_assoc bs (4 * i) 2, Nat.add_assoc bs (4 * i) 3,
      fill_in (by omega), fill_in (by omega), fill_in (by omega), fill_in (by omega), show 4 * i % 4 = 0 by omega, show 4 * i / 4 = i by omega,
      show (4 * i + 1) % 4 = 1 by omega, show (4 * i + 1) / 4 = i by omega,
      show (4 * i + 2) % 4 = 2 by omega, show (4 * i + 2) / 4 = i by omega,
      show (4 * i + 3) % 4 = 3 by omega, show (4 * i + 3) / 4 = i by omega]
    have h := (o.bits (x (xs + i))).isLt
    simp only [octet, BitVec.toNat_ofNat]
    omega
  · intro a ha
    rw [fill_out]
    simp only [show 4 * n / 4 = n by omega, Nat.min_self]
    exact ha

/-- A signalling NaN with payload: pattern 0x7fa00001. -/
example : (f32Tof32ble (F := BitVec 32) (D := Unit) ⟨fun _ => 0, fun _ => (), fun a _ => a, fun a _ => a,
      fun a _ => a, fun _ _ => (), fun _ => 0, fun _ => 0, id, id⟩ ⟨0, 1⟩ (fun _ => 0x7fa00001) ⟨0, 4⟩
      (fun _ => 0)).map (fun m => (List.range 4).map fun i => (m i).toNat) = some [1, 0, 160, 127] := by
  decide +kernel

end Verif.Conv
