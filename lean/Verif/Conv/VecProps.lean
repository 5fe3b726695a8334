import Verif.Conv.ConvProps

/-!
# Properties C19 and C28 for the vector routines of `dsp/math32.go`

Input and output share one memory.  `NoOvertake out inp n` allows every overlap except an output
that starts strictly inside the part of the input that is read; in particular it allows the
output to be the input itself.
-/

namespace Verif.Conv
variable {F D : Type}

/-- The output does not start strictly inside the first `n` input elements. -/
def NoOvertake (out inp n : Nat) : Prop := out ≤ inp ∨ inp + n ≤ out

theorem fill_ahead {α : Type} {m : Nat → α} {out inp n i : Nat} {g : Nat → α} (h : NoOvertake out inp n)
    (hi : i < n) : fill m out i g (inp + i) = m (inp + i) := by
  unfold NoOvertake at h; exact fill_out (by omega)

/-- `vMulC64xF32`. -/
theorem C19_vMulC64xF32 (o : FloatOps F D) (input output : Slice) (m : Nat → F × F) (mul : Slice)
    (fm : Nat → F) (h : NoOvertake output.base input.base (min (min input.len output.len) mul.len)) :
    vMulC64xF32 o input output m mul fm
      = some (fill m output.base (min (min input.len output.len) mul.len) fun i =>
        (o.mul (m (input.base + i)).1 (fm (mul.base + i)), o.mul (m (input.base + i)).2 (fm (mul.base + i)))) := by
  simp only [vMulC64xF32, minIf, Option.bind_eq_bind]
  rw [take_ok (by omega)]
  refine forRange_states (S := fun i => fill m output.base i fun i =>
        (o.mul (m (input.base + i)).1 (fm (mul.base + i)), o.mul (m (input.base + i)).2 (fm (mul.base + i))))
    (fill_zero ..) ?_
  intro i hi
  rw [read_ok hi, Option.bind_some, read_ok (by omega), Option.bind_some, write_ok (by omega), update_fill]
  simp only [fill_ahead h hi]

/-- Specification of the product of complex numbers `(a + ib)(c + id) = (ac - bd) + i(ad + bc)`, in
this order of operations. -/
def complexProduct (o : FloatOps F D) : F × F → F × F → F × F
  | (a, b), (c, d) => (o.sub (o.mul a c) (o.mul b d), o.add (o.mul a d) (o.mul b c))

/-- `VMulC64`: the multiplier may be the input or the output as well. -/
theorem C19_vMulC64 (o : FloatOps F D) (input output mul : Slice) (m : Nat → F × F)
    (h : NoOvertake output.base input.base (min (min input.len output.len) mul.len))
    (h2 : NoOvertake output.base mul.base (min (min input.len output.len) mul.len)) :
    vMulC64 o input output mul m
      = some (fill m output.base (min (min input.len output.len) mul.len) fun i =>
        complexProduct o (m (input.base + i)) (m (mul.base + i))) := by
  simp only [vMulC64, minIf, Option.bind_eq_bind]
  rw [take_ok (by omega)]
  refine forRange_states (S := fun i => fill m output.base i fun i =>
        complexProduct o (m (input.base + i)) (m (mul.base + i)))
    (fill_zero ..) ?_
  intro i hi
  rw [read_ok hi, Option.bind_some, read_ok (by omega), Option.bind_some, write_ok (by omega), update_fill]
  simp only [fill_ahead h hi, fill_ahead h2 hi, cmul, complexProduct]

/-- `VAddF32`. -/
theorem C19_vAddF32 (o : FloatOps F D) (input output : Slice) (m : Nat → F)
    (h : NoOvertake output.base input.base (min input.len output.len)) :
    vAddF32 o input output m = some (fill m output.base (min input.len output.len) fun i =>
        o.add (m (output.base + i)) (m (input.base + i))) := by
  simp only [vAddF32, minIf, Option.bind_eq_bind]
  rw [take_ok (by omega)]
  refine forRange_states (S := fun i => fill m output.base i fun i =>
        o.add (m (output.base + i)) (m (input.base + i)))
    (fill_zero ..) ?_
  intro i hi
  rw [read_ok hi, Option.bind_some, read_ok (by omega), Option.bind_some, write_ok (by omega), update_fill]
  rw [fill_ahead h hi, fill_out (by omega)]

/-- `VAddC64`. -/
theorem C19_vAddC64 (o : FloatOps F D) (input output : Slice) (m : Nat → F × F)
    (h : NoOvertake output.base input.base (min input.len output.len)) :
    vAddC64 o input output m = some (fill m output.base (min input.len output.len) fun i =>
        (o.add (m (output.base + i)).1 (m (input.base + i)).1,
         o.add (m (output.base + i)).2 (m (input.base + i)).2)) := by
  simp only [vAddC64, minIf, Option.bind_eq_bind]
  rw [take_ok (by omega)]
  refine forRange_states (S := fun i => fill m output.base i fun i =>
        (o.add (m (output.base + i)).1 (m (input.base + i)).1,
         o.add (m (output.base + i)).2 (m (input.base + i)).2))
    (fill_zero ..) ?_
  intro i hi
  rw [read_ok hi, Option.bind_some, read_ok (by omega), Option.bind_some, write_ok (by omega), update_fill]
  rw [fill_ahead h hi, fill_out (a := output.base + i) (by omega)]

/-- `vscaleF32`. -/
theorem C19_vscaleF32 (o : FloatOps F D) (input output : Slice) (m : Nat → F) (scale : F)
    (h : NoOvertake output.base input.base (min input.len output.len)) :
    vscaleF32 o input output m scale = some (fill m output.base (min input.len output.len) fun i =>
        o.mul (m (input.base + i)) scale) := by
  simp only [vscaleF32, minIf, Option.bind_eq_bind]
  rw [take_ok (by omega)]
  refine forRange_states (S := fun i => fill m output.base i fun i =>
        o.mul (m (input.base + i)) scale)
    (fill_zero ..) ?_
  intro i hi
  rw [read_ok hi, Option.bind_some, write_ok (by omega), update_fill]
  rw [fill_ahead h hi]

/-- `vAbsC64` on nonempty slices; see `C19_violated_vAbsC64`. -/
theorem C19_vAbsC64_partial (o : FloatOps F D) (input : Slice) (im : Nat → F × F) (output : Slice)
    (om : Nat → F) (hi : 0 < input.len) (ho : 0 < output.len) :
    vAbsC64 o input im output om = some (fill om output.base (min input.len output.len) fun i =>
      o.sqrt (o.add (o.mul (im (input.base + i)).1 (im (input.base + i)).1)
        (o.mul (im (input.base + i)).2 (im (input.base + i)).2))) := by
  have h0 : ¬ min input.len output.len = 0 := by omega
  simp only [vAbsC64, minIf, Option.bind_eq_bind, if_neg h0]
  rw [take_ok (Nat.min_le_left _ _), read_ok (by omega)]
  refine forRange_states (S := fun i => fill om output.base i fun i =>
      o.sqrt (o.add (o.mul (im (input.base + i)).1 (im (input.base + i)).1)
        (o.mul (im (input.base + i)).2 (im (input.base + i)).2))) (fill_zero ..) ?_
  intro i hi
  rw [read_ok hi, Option.bind_some, write_ok (by omega), update_fill _ _ _ _ _ rfl]

/-- `vAbsC64` panics whenever one of its slices is empty. -/
theorem C19_violated_vAbsC64 (o : FloatOps F D) (input : Slice) (im : Nat → F × F)
    (output : Slice) (om : Nat → F) :
    vAbsC64 o input im output om = none ↔ input.len = 0 ∨ output.len = 0 := by
  constructor
  · intro h
    by_contra hc
    rw [C19_vAbsC64_partial o input im output om (by omega) (by omega)] at h
    cases h
  · intro h
    have h0 : min input.len output.len = 0 := by omega
    simp [vAbsC64, minIf, h0]

theorem floatView_ok {s : Slice} (h : 0 < s.len) (h2 : s.len ≤ 2 ^ 25) :
    floatView s = some ⟨s.base * 2, s.len * 2⟩ := by
  simp only [floatView]
  rw [if_neg (by omega), if_pos (by simp [Nat.shiftLeft_eq]; omega)]

/-- `VScaleC64` on slices with at least one and at most `2^25` elements; see
`C19_violated_vScaleC64`. -/
theorem C19_vScaleC64_partial (o : FloatOps F D) (input output : Slice) (m : Nat → F × F) (scale : F)
    (h : NoOvertake output.base input.base (min input.len output.len))
    (hi : 0 < input.len) (ho : 0 < output.len) (hi2 : input.len ≤ 2 ^ 25) (ho2 : output.len ≤ 2 ^ 25) :
    vScaleC64 o input output m scale = some (fill m output.base (min input.len output.len) fun i =>
        (o.mul (m (input.base + i)).1 scale, o.mul (m (input.base + i)).2 scale)) := by
  simp only [vScaleC64, floatView_ok hi hi2, floatView_ok ho ho2, Option.bind_eq_bind, Option.bind_some]
  rw [C19_vscaleF32]
  · simp only [Option.bind_some]
    congr 1
    funext a
    by_cases ha : output.base ≤ a ∧ a < output.base + min input.len output.len
    · obtain ⟨j, rfl⟩ := Nat.exists_eq_add_of_le ha.1
      rw [fill_in (by omega)]
      simp only [asComplex]
      rw [show 2 * (output.base + j) = output.base * 2 + 2 * j by omega, fill_in (by omega),
        Nat.add_assoc, fill_in (by omega)]
      simp only [asFloats]
      rw [show (input.base * 2 + 2 * j) % 2 = 0 by omega,
        show (input.base * 2 + 2 * j) / 2 = input.base + j by omega,
        show (input.base * 2 + (2 * j + 1)) % 2 = 1 by omega,
        show (input.base * 2 + (2 * j + 1)) / 2 = input.base + j by omega]
      rfl
    · rw [fill_out (by omega)]
      simp only [asComplex]
      rw [fill_out (by omega), fill_out (by omega)]
      simp only [asFloats]
      rw [show 2 * a % 2 = 0 by omega, show 2 * a / 2 = a by omega, show (2 * a + 1) % 2 = 1 by omega,
        show (2 * a + 1) / 2 = a by omega]
      rfl
  · unfold NoOvertake at *
    dsimp only
    omega

/-- `VScaleC64` panics exactly when one of its slices is empty or longer than `2^25` elements. -/
theorem C19_violated_vScaleC64 (o : FloatOps F D) (input output : Slice) (m : Nat → F × F) (scale : F)
    (h : NoOvertake output.base input.base (min input.len output.len)) :
    vScaleC64 o input output m scale = none ↔
      input.len = 0 ∨ output.len = 0 ∨ 2 ^ 25 < input.len ∨ 2 ^ 25 < output.len := by
  have bad : ∀ s : Slice, s.len = 0 ∨ 2 ^ 25 < s.len → floatView s = none := by
    intro s hs
    simp only [floatView]
    rcases hs with hs | hs
    · rw [if_pos hs]
    · rw [if_neg (by omega), if_neg (by simp [Nat.shiftLeft_eq]; omega)]
  constructor
  · intro hn
    by_contra hc
    rw [C19_vScaleC64_partial o input output m scale h (by omega) (by omega) (by omega) (by omega)] at hn
    cases hn
  · intro hs
    simp only [vScaleC64, Option.bind_eq_bind]
    by_cases hi : input.len = 0 ∨ 2 ^ 25 < input.len
    · rw [bad _ hi]; rfl
    · rw [floatView_ok (by omega) (by omega), Option.bind_some, bad output (by omega)]; rfl

/-- The integers as a concrete arithmetic for the examples. -/
def intOps : FloatOps Int Unit :=
  ⟨id, fun _ => (), (· * ·), (· + ·), (· - ·), fun _ _ => (), fun _ => 0, fun _ => 0, fun _ => 0, id⟩

/-- Overlapping slices, output one cell before the input: allowed and computed correctly. -/
example : NoOvertake 3 4 (min 3 3) ∧
    (vscaleF32 intOps ⟨4, 3⟩ ⟨3, 3⟩ (fun i => (i : Int)) 10).map (fun m => (List.range 8).map m)
      = some [0, 1, 2, 40, 50, 60, 6, 7] := ⟨Or.inl (by decide), by decide +kernel⟩

example : NoOvertake 4 4 (min 2 3) ∧
    (vScaleC64 intOps ⟨4, 2⟩ ⟨4, 3⟩ (fun i => ((i : Int), -(i : Int))) 10).map (fun m => (List.range 7).map m)
      = some [(0, 0), (1, -1), (2, -2), (3, -3), (40, -40), (50, -50), (6, -6)] :=
  ⟨Or.inl (by decide), by decide +kernel⟩

/-! ## C28: in place -/

/-- A routine of the shape `f input output memory`, run in place on the slice `s`, leaves in `s`
what it leaves in a separate output slice `t` of the same length. -/
def InPlaceSame {α : Type} (f : Slice → Slice → (Nat → α) → Option (Nat → α)) : Prop :=
  ∀ (m : Nat → α) (s t n : Nat), s + n ≤ t ∨ t + n ≤ s → ∃ mi ms,
    f ⟨s, n⟩ ⟨s, n⟩ m = some mi ∧ f ⟨s, n⟩ ⟨t, n⟩ m = some ms ∧ ∀ i, i < n → mi (s + i) = ms (t + i)

theorem inPlace_of_fill {α : Type} {f : Slice → Slice → (Nat → α) → Option (Nat → α)} (g : α → Nat → α)
    (h : ∀ m s t n, NoOvertake t s n → f ⟨s, n⟩ ⟨t, n⟩ m = some (fill m t n fun i => g (m (s + i)) i)) :
    InPlaceSame f := by
  intro m s t n hd
  refine ⟨_, _, h m s s n (Or.inl (Nat.le_refl _)), h m s t n (by unfold NoOvertake; omega), ?_⟩
  intro i hi
  rw [fill_in hi, fill_in hi]

/-- C28 for the routines whose output is a function of the input: scaling a real slice, multiplying
a complex slice by a window or by another complex slice that is not touched. -/
theorem C28_in_place_partial (o : FloatOps F D) :
    (∀ scale, InPlaceSame fun i out m => vscaleF32 o i out m scale) ∧
    (∀ (mul : Slice) (fm : Nat → F), ∀ (m : Nat → F × F) (s t n : Nat), n ≤ mul.len →
      s + n ≤ t ∨ t + n ≤ s → ∃ mi ms, vMulC64xF32 o ⟨s, n⟩ ⟨s, n⟩ m mul fm = some mi ∧
        vMulC64xF32 o ⟨s, n⟩ ⟨t, n⟩ m mul fm = some ms ∧ ∀ i, i < n → mi (s + i) = ms (t + i)) ∧
    (∀ (mul : Slice) (m : Nat → F × F) (s t n : Nat), n ≤ mul.len →
      s + n ≤ t ∨ t + n ≤ s → NoOvertake t mul.base n → NoOvertake s mul.base n →
      ∃ mi ms, vMulC64 o ⟨s, n⟩ ⟨s, n⟩ mul m = some mi ∧
        vMulC64 o ⟨s, n⟩ ⟨t, n⟩ mul m = some ms ∧ ∀ i, i < n → mi (s + i) = ms (t + i)) ∧
    (∀ scale (m : Nat → F × F) (s t n : Nat), 0 < n → n ≤ 2 ^ 25 → s + n ≤ t ∨ t + n ≤ s →
      ∃ mi ms, vScaleC64 o ⟨s, n⟩ ⟨s, n⟩ m scale = some mi ∧
        vScaleC64 o ⟨s, n⟩ ⟨t, n⟩ m scale = some ms ∧ ∀ i, i < n → mi (s + i) = ms (t + i)) := by
  refine ⟨?_, ?_, ?_, ?_⟩
  · intro scale
    refine inPlace_of_fill (fun v _ => o.mul v scale) ?_
    intro m s t n h
    rw [C19_vscaleF32 o ⟨s, n⟩ ⟨t, n⟩ m scale (by simpa using h)]
    simp only [Nat.min_self]
  · intro mul fm m s t n hn hd
    have e : min (min n n) mul.len = n := by omega
    refine ⟨_, _, C19_vMulC64xF32 o ⟨s, n⟩ ⟨s, n⟩ m mul fm (Or.inl (Nat.le_refl _)),
      C19_vMulC64xF32 o ⟨s, n⟩ ⟨t, n⟩ m mul fm (by unfold NoOvertake; dsimp only; omega), ?_⟩
    intro i hi
    dsimp only
    rw [fill_in (by omega), fill_in (by omega)]
  · intro mul m s t n hn hd h1 h2
    have e : min (min n n) mul.len = n := by omega
    refine ⟨_, _, C19_vMulC64 o ⟨s, n⟩ ⟨s, n⟩ mul m (Or.inl (Nat.le_refl _)) (by show NoOvertake s mul.base (min (min n n) mul.len); rw [e]; exact h2),
      C19_vMulC64 o ⟨s, n⟩ ⟨t, n⟩ mul m (by unfold NoOvertake; dsimp only; omega) (by show NoOvertake t mul.base (min (min n n) mul.len); rw [e]; exact h1), ?_⟩
    intro i hi
    dsimp only
    rw [fill_in (by omega), fill_in (by omega)]
  · intro scale m s t n h0 hn hd
    refine ⟨_, _, C19_vScaleC64_partial o ⟨s, n⟩ ⟨s, n⟩ m scale (Or.inl (Nat.le_refl _)) h0 h0 hn hn,
      C19_vScaleC64_partial o ⟨s, n⟩ ⟨t, n⟩ m scale (by unfold NoOvertake; dsimp only; omega) h0 h0 hn hn, ?_⟩
    intro i hi
    dsimp only
    rw [fill_in (by omega), fill_in (by omega)]

/-- Squaring in place (input, output and multiplier are the same slice) works as well. -/
theorem C28_square_in_place (o : FloatOps F D) (m : Nat → F × F) (s n : Nat) :
    vMulC64 o ⟨s, n⟩ ⟨s, n⟩ ⟨s, n⟩ m = some (fill m s n fun i => complexProduct o (m (s + i)) (m (s + i))) := by
  have := C19_vMulC64 o ⟨s, n⟩ ⟨s, n⟩ ⟨s, n⟩ m (Or.inl (Nat.le_refl _)) (Or.inl (Nat.le_refl _))
  simpa using this

/-- `ui8toi16b` on a byte slice in place is wrong: the second sample is overwritten before it is
read, for every memory whose first two samples make a difference. -/
theorem C28_violated_ui8toi16b (m : Nat → BitVec 8) (s t : Nat) (ht : s + 4 ≤ t)
    (hne : m s ≠ m (s + 1) - 128) :
    ∃ mi ms, ui8toi16b ⟨s, 4⟩ ⟨s, 4⟩ m = some mi ∧ ui8toi16b ⟨s, 4⟩ ⟨t, 4⟩ m = some ms ∧
      mi (s + 2) ≠ ms (t + 2) := by
  have hw := (widen_octets (m (s + 1))).1
  have hmi : ui8toi16b ⟨s, 4⟩ ⟨s, 4⟩ m = some (Function.update (Function.update (Function.update
      (Function.update m s (m s - 128)) (s + 1) (m s - 128)) (s + 2) (m s - 128 - 128)) (s + 3)
      (m s - 128 - 128)) := by
    simp [ui8toi16b, forRange, Slice.take, Slice.read, Slice.write]
  refine ⟨_, _, hmi, C14_ui8toi16b ⟨s, 4⟩ ⟨t, 4⟩ m (by dsimp only; omega), ?_⟩
  rw [fill_in (by show 2 < 2 * min (4 / 2) 4; decide)]
  show _ ≠ octet 0 (BitVec.ofInt 16 (widen (m (s + 1)).toNat)).toNat
  rw [hw]
  simp [Function.update]
  intro h
  apply hne
  rw [← h]
  generalize m s = x
  revert x; decide +kernel

example : (fun i : Nat => BitVec.ofNat 8 i) 0 ≠ (fun i : Nat => BitVec.ofNat 8 i) (0 + 1) - 128 := by decide

/-- The condition on overlap is needed: with the output one element after the input, scaling
re-scales its own results. -/
theorem C28_overlap_sharp :
    (vscaleF32 intOps ⟨0, 2⟩ ⟨1, 2⟩ (fun i => (i : Int) + 1) 10).map (fun m => (m 1, m 2))
      = some (10, 100) := by decide +kernel

end Verif.Conv
