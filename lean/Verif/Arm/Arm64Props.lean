import Verif.Arm.Arm64Model
import Verif.Asm.MaxProps
import Verif.Asm.ToF32Lemmas
import Verif.Conv.ConvProps
import Verif.Conv.VecProps
import Mathlib.Data.Prod.Lex
import Mathlib.Order.Lattice

/-!
# Properties C79 and C80: the arm64 routines against the portable code
-/

namespace Verif.Arm
open Verif.Conv Verif.Asm Verif.Fp

variable {F D σ : Type}

/-- A do-while loop advancing a position by `w` from `c` to `e`; the condition is only looked at where the loop
gets to. -/
theorem doWhile_steps {body : σ → Option σ} {cond : σ → Bool} (S : Nat → σ) (w c e fuel : Nat)
    (hw : 0 < w) (hce : c < e) (hd : w ∣ e - c) (hf : e - c ≤ fuel)
    (hb : ∀ x, c ≤ x → x + w ≤ e → body (S x) = some (S (x + w)))
    (hc : ∀ x, c < x → x ≤ e → w ∣ x - c → cond (S x) = decide (x < e)) :
    doWhile body cond fuel (S c) = some (S e) := by
  obtain ⟨k, hk⟩ := hd
  have hk0 : 0 < k := by
    rcases Nat.eq_zero_or_pos k with h | h
    · subst h; omega
    · exact h
  have hkle : k ≤ w * k := Nat.le_mul_of_pos_left k hw
  have mono : ∀ i, i < k → w * i + w ≤ w * k := fun i hi => by
    rw [← Nat.mul_succ]; exact Nat.mul_le_mul_left w hi
  have pos : ∀ i, 0 < i → 0 < w * i := fun i hi => Nat.mul_pos hw hi
  have := doWhile_run (body := body) (cond := cond) (fun i => S (c + w * i)) k fuel hk0 (by omega)
    (fun i hi => by
      rw [hb _ (by omega) (by have := mono i hi; omega), Nat.mul_succ, Nat.add_assoc])
    (fun i h0 hi => by
      show cond (S (c + w * i)) = true
      have := mono i hi
      have := pos i h0
      rw [hc _ (by omega) (by omega) ⟨i, by omega⟩, decide_eq_true_eq]; omega)
    (by
      show cond (S (c + w * k)) = false
      have := pos k hk0
      rw [hc _ (by omega) (by omega) ⟨k, by omega⟩, decide_eq_false_iff_not]; omega)
  simp only [Nat.mul_zero, Nat.add_zero] at this
  rw [this, show c + w * k = e by omega]

/-! ## C79 -/

theorem store4_fill_at (om : Nat → F) (b c : Nat) (g : Nat → F) (lane : Nat → F) (h : ∀ k, k < 4 → lane k = g (c + k)) :
    store4 (fill om b c g) (b + c) lane = fill om b (c + 4) g := by
  have u := fun i v hv => update_fill om b i g v hv
  unfold store4
  rw [u c _ (h 0 (by omega)), show b + c + 1 = b + (c + 1) by omega, u (c + 1) _ (h 1 (by omega)),
    show b + c + 2 = b + (c + 2) by omega, u (c + 1 + 1) _ (h 2 (by omega)),
    show b + c + 3 = b + (c + 3) by omega, u (c + 1 + 1 + 1) _ (h 3 (by omega))]

/-- The state after `c` of `n` elements. -/
def stC (om g : Nat → F) (ib ob n c : Nat) : StC F :=
  ⟨ib + c, ob + c, n - c, fill om ob c g, if c = 0 then 0 else ib + c, if c = 0 then 0 else ob + c⟩

theorem stC_zero (om g : Nat → F) (ib ob n : Nat) : stC om g ib ob n 0 = ⟨ib, ob, n, om, 0, 0⟩ := by
  simp [stC, fill_zero]

theorem mark (b c w : Nat) (hw : 0 < w) : max (if c = 0 then 0 else b + c) (b + c + w) = if c + w = 0 then 0 else b + (c + w) := by
  split <;> split <;> omega

theorem lane16 (im : Nat → BitVec 8) (p i : Nat) : ((((im (p + i)) - 0x80#8).signExtend 16).signExtend 32).toInt = ((im (p + i)).toNat : Int) - 128 := by
  rw [BitVec.toInt_signExtend_of_le (by omega), BitVec.toInt_signExtend_of_le (by omega)]
  exact sub128 _

/-- The value of element `i`. -/
def u8At (o : FloatOps F D) (im : Nat → BitVec 8) (ib i : Nat) : F := o.ofInt (((im (ib + i)).toNat : Int) - 128)

theorem u8Block64_st (o : FloatOps F D) (im : Nat → BitVec 8) (om : Nat → F) (ib ob n c : Nat) :
    u8Block64 o im (stC om (u8At o im ib) ib ob n c) = some (stC om (u8At o im ib) ib ob n (c + 32)) := by
  have e1 := mark ib c 32 (by omega)
  have e2 := mark ob c 32 (by omega)
  have a : ∀ k, ob + c + k = ob + (c + k) := fun k => Nat.add_assoc _ _ _
  simp only [u8Block64, stC, e1, e2]
  rw [show ob + c + 32 - 8 = ob + c + 24 by omega, show ob + c + 24 + 4 = ob + c + 28 by omega]
  simp only [a]
  rw [store4_fill_at, store4_fill_at, store4_fill_at, store4_fill_at, store4_fill_at, store4_fill_at,
    store4_fill_at, store4_fill_at]
  · congr 2
  all_goals
    intro k hk
    simp only [scvtf, sxtlH, sxtl2H, sxtlB, sxtl2B, load16]
    rw [lane16, u8At]
    congr 5
    omega

theorem u8Step64_st (o : FloatOps F D) (im : Nat → BitVec 8) (om : Nat → F) (ib ob n c : Nat) :
    u8Step64 o im (stC om (u8At o im ib) ib ob n c) = some (stC om (u8At o im ib) ib ob n (c + 1)) := by
  have e1 := mark ib c 1 (by omega)
  have e2 := mark ob c 1 (by omega)
  simp only [u8Step64, stC, e1, e2]
  have u := update_fill om ob c (u8At o im ib) (o.ofInt (((im (ib + c)).toNat : Int) - 128)) rfl
  rw [u]
  congr 2

/-- A loop of blocks of `w` followed by a loop of single elements covers `n` elements. -/
theorem blocks_then_scalar (S : Nat → StC F) (n w : Nat) (hw : 0 < w) (hcnt : ∀ x, (S x).cnt = n - x)
    (block step : StC F → Option (StC F)) (hb : ∀ x, x + w ≤ n → block (S x) = some (S (x + w)))
    (hs : ∀ x, x + 1 ≤ n → step (S x) = some (S (x + 1))) :
    (if n < w then some (S 0) else doWhile block (fun s => decide (s.cnt ≥ w)) (n + 1) (S 0)).bind
      (scalarPart step (n + 1)) = some (S n) := by
  have hm : n % w < w := Nat.mod_lt _ hw
  have hle : n % w ≤ n := Nat.mod_le _ _
  have hdiv : w ∣ n - n % w := Nat.dvd_sub_mod n
  have h1 : (if n < w then some (S 0) else doWhile block (fun s => decide (s.cnt ≥ w)) (n + 1) (S 0)) = some (S (n - n % w)) := by
    by_cases h : n < w
    · rw [if_pos h, Nat.mod_eq_of_lt h, Nat.sub_self]
    · rw [if_neg h]
      have hpos : 0 < n - n % w := by omega
      refine doWhile_steps S w 0 (n - n % w) _ hw hpos hdiv (by omega) (fun x _ hx => hb x (by omega)) ?_
      intro x _ hx hd
      rw [hcnt]
      congr 1
      apply propext
      constructor
      · intro hge; omega
      · intro hlt
        have hd2 : w ∣ (n - n % w) - x := Nat.dvd_sub hdiv (by simpa using hd)
        have := Nat.le_of_dvd (by omega) hd2
        omega
  rw [h1, Option.bind_some, scalarPart, hcnt]
  by_cases h : n - (n - n % w) = 0
  · rw [if_pos h, show n - n % w = n by omega]
  · rw [if_neg h]
    refine doWhile_steps S 1 (n - n % w) n _ (by omega) (by omega) (one_dvd _) (by omega) (fun x _ hx => hs x hx) ?_
    intro x _ hx _
    rw [hcnt]
    congr 1
    apply propext
    omega

theorem minLt (a b : Nat) : (if a < b then a else b) = min a b := by split <;> omega

theorem ui8tof32Arm64_run (o : FloatOps F D) (input : Slice) (im : Nat → BitVec 8) (output : Slice) (om : Nat → F) :
    ui8tof32Arm64 o input im output om =
      some (stC om (u8At o im input.base) input.base output.base (min input.len output.len) (min input.len output.len)) := by
  unfold ui8tof32Arm64
  simp only [minLt]
  generalize min input.len output.len = n
  rw [← stC_zero om (u8At o im input.base)]
  exact blocks_then_scalar _ n 32 (by omega) (fun _ => rfl) _ _ (fun x _ => u8Block64_st o im om _ _ _ x)
    (fun x _ => u8Step64_st o im om _ _ _ x)

/-- C79, `Ui8tof32`: on non-empty slices arm64 leaves exactly the memory the portable code leaves, and neither
reads nor writes outside the common length; on empty ones it does nothing, where the portable code panics. -/
theorem C79_ui8tof32 (o : FloatOps F D) (input : Slice) (im : Nat → BitVec 8) (output : Slice) (om : Nat → F) :
    ∃ t, ui8tof32Arm64 o input im output om = some t ∧
      t.om = fill om output.base (min input.len output.len) (fun i => o.ofInt (((im (input.base + i)).toNat : Int) - 128)) ∧
      t.rEnd ≤ input.base + min input.len output.len ∧ t.wEnd ≤ output.base + min input.len output.len ∧
      (0 < min input.len output.len → ui8tof32 o input im output om = some t.om) ∧
      (min input.len output.len = 0 → t.om = om ∧ ui8tof32 o input im output om = none) := by
  refine ⟨_, ui8tof32Arm64_run o input im output om, rfl, ?_, ?_, ?_, ?_⟩
  · simp only [stC]; split <;> omega
  · simp only [stC]; split <;> omega
  · intro h
    have hne : ¬ (min input.len output.len = 0) := by omega
    simp only [ui8tof32, minIf, Option.bind_eq_bind]
    rw [if_neg hne, read_ok (by omega), Option.bind_some, take_ok (by omega), Option.bind_some]
    refine forRange_states (S := fun i => fill om output.base i (u8At o im input.base)) (fill_zero _ _ _) ?_
    intro i hi
    rw [read_ok hi, Option.bind_some, write_ok (by omega)]
    exact congrArg some (update_fill om output.base i (u8At o im input.base) _ rfl)
  · intro h
    simp only [stC, h]
    refine ⟨fill_zero _ _ _, ?_⟩
    simp only [ui8tof32, minIf, Option.bind_eq_bind]
    rw [if_pos h]
    rfl

theorem vsBlock64_st (mul : F → F → F) (scale : F) (m : Nat → F) (ib ob n c : Nat) (h : NoOvertake ob ib n) (hc : c + 16 ≤ n) :
    vsBlock64 mul scale (stC m (fun i => mul (m (ib + i)) scale) ib ob n c)
      = some (stC m (fun i => mul (m (ib + i)) scale) ib ob n (c + 16)) := by
  have e1 := mark ib c 16 (by omega)
  have e2 := mark ob c 16 (by omega)
  have a : ∀ k, ob + c + k = ob + (c + k) := fun k => Nat.add_assoc _ _ _
  simp only [vsBlock64, stC, e1, e2]
  simp only [a]
  rw [store4_fill_at, store4_fill_at, store4_fill_at, store4_fill_at]
  · congr 2
  all_goals
    intro k hk
    unfold NoOvertake at h
    rw [fill_out (by omega)]
    congr 2
    omega

theorem vsStep64_st (mul : F → F → F) (scale : F) (m : Nat → F) (ib ob n c : Nat) (h : NoOvertake ob ib n) (hc : c + 1 ≤ n) :
    vsStep64 mul scale (stC m (fun i => mul (m (ib + i)) scale) ib ob n c)
      = some (stC m (fun i => mul (m (ib + i)) scale) ib ob n (c + 1)) := by
  have e1 := mark ib c 1 (by omega)
  have e2 := mark ob c 1 (by omega)
  simp only [vsStep64, stC, e1, e2]
  rw [fill_ahead h (by omega), update_fill m ob c (fun i => mul (m (ib + i)) scale) _ rfl]
  congr 2

theorem vscaleF32Arm64_run (mul : F → F → F) (input output : Slice) (scale : F) (m : Nat → F)
    (h : NoOvertake output.base input.base (min input.len output.len)) :
    vscaleF32Arm64 mul input output scale m =
      some (stC m (fun i => mul (m (input.base + i)) scale) input.base output.base (min input.len output.len) (min input.len output.len)) := by
  unfold vscaleF32Arm64
  simp only [minLt]
  generalize min input.len output.len = n at h
  rw [← stC_zero m (fun i => mul (m (input.base + i)) scale)]
  exact blocks_then_scalar _ n 16 (by omega) (fun _ => rfl) _ _ (fun x hx => vsBlock64_st mul scale m _ _ _ x h hx)
    (fun x hx => vsStep64_st mul scale m _ _ _ x h hx)

/-- C79, `VScaleF32` (partial: the output must not start strictly inside the input; see `C79_violated`): for all
lengths arm64 leaves exactly the memory the portable code leaves, every element of the common length is scaled,
and nothing outside it is read or written. -/
theorem C79_vscale_partial (o : FloatOps F D) (input output : Slice) (scale : F) (m : Nat → F)
    (h : NoOvertake output.base input.base (min input.len output.len)) :
    ∃ t, vscaleF32Arm64 o.mul input output scale m = some t ∧
      t.om = fill m output.base (min input.len output.len) (fun i => o.mul (m (input.base + i)) scale) ∧
      t.rEnd ≤ input.base + min input.len output.len ∧ t.wEnd ≤ output.base + min input.len output.len ∧
      vscaleF32 o input output m scale = some t.om := by
  refine ⟨_, vscaleF32Arm64_run o.mul input output scale m h, rfl, ?_, ?_, ?_⟩
  · simp only [stC]; split <;> omega
  · simp only [stC]; split <;> omega
  · exact C19_vscaleF32 o input output m scale h

/-- Integer arithmetic for the examples. -/
def intOps : FloatOps Int Int := ⟨id, id, (· * ·), (· + ·), (· - ·), (· * ·), fun x => BitVec.ofInt 16 x, fun x => BitVec.ofInt 8 x,
  fun x => BitVec.ofInt 32 x, id⟩

/-- C79 is violated when the output starts strictly inside the input: with the output one element further on, the
portable code scales what it has just written, arm64 scales what was there before. -/
theorem C79_violated :
    (vscaleF32Arm64 intOps.mul ⟨0, 16⟩ ⟨1, 16⟩ 2 (fun _ => 1)).map (fun t => t.om 2) = some 2 ∧
      (vscaleF32 intOps ⟨0, 16⟩ ⟨1, 16⟩ (fun _ => 1) 2).map (fun m => m 2) = some 4 := by decide +kernel

example : (vscaleF32Arm64 intOps.mul ⟨5, 40⟩ ⟨5, 37⟩ 3 (fun i => (i : Int))).map (fun t => (t.om 4, t.om 5, t.om 41, t.om 42, t.rEnd))
    = some (4, 15, 123, 42, 42) := by decide +kernel
example : NoOvertake (⟨5, 37⟩ : Slice).base (⟨5, 40⟩ : Slice).base 37 := Or.inl (Nat.le_refl _)
example : (ui8tof32Arm64 intOps ⟨2, 70⟩ (fun i => BitVec.ofNat 8 (3 * i)) ⟨7, 67⟩ (fun _ => 9)).map
    (fun t => (t.om 6, t.om 7, t.om 73, t.om 74, t.rEnd, t.wEnd)) = some (9, -122, 76, 9, 69, 74) := by decide +kernel

/-! ## C80 -/

/-- `op` takes the operand with the larger rank. -/
structure TakesMax {K : Type} [LinearOrder K] (rank : F → K) (op : F → F → F) : Prop where
  inj : ∀ a b, rank a = rank b → a = b
  eq : ∀ a b, op a b = if rank a ≤ rank b then b else a

namespace TakesMax
variable {K : Type} [LinearOrder K] {rank : F → K} {op : F → F → F}

theorem rank_join (h : TakesMax rank op) (a b : F) : rank (op a b) = max (rank a) (rank b) := by
  rw [h.eq]
  split
  · rename_i hle; rw [max_eq_right hle]
  · rename_i hle; rw [max_eq_left (le_of_lt (not_le.1 hle))]

theorem comm (h : TakesMax rank op) (a b : F) : op a b = op b a := h.inj _ _ (by rw [h.rank_join, h.rank_join, max_comm])

theorem assoc (h : TakesMax rank op) (a b c : F) : op (op a b) c = op a (op b c) :=
  h.inj _ _ (by rw [h.rank_join, h.rank_join, h.rank_join, h.rank_join, max_assoc])

/-- `x` has the largest rank among `im i`, `i ∈ S`, and is one of them. -/
def Top (rank : F → K) (im : Nat → F) (S : Nat → Prop) (x : F) : Prop :=
  (∀ i, S i → rank (im i) ≤ rank x) ∧ ∃ i, S i ∧ x = im i

theorem Top.one (im : Nat → F) (j : Nat) : Top rank im (fun i => i = j) (im j) :=
  ⟨fun i hi => by rw [hi], j, rfl, rfl⟩

theorem Top.congr {im : Nat → F} {S T : Nat → Prop} {x : F} (h : Top rank im S x) (e : ∀ i, S i ↔ T i) : Top rank im T x :=
  ⟨fun i hi => h.1 i ((e i).2 hi), by obtain ⟨i, hi, hx⟩ := h.2; exact ⟨i, (e i).1 hi, hx⟩⟩

theorem Top.join (h : TakesMax rank op) {im : Nat → F} {S T : Nat → Prop} {x y : F} (hx : Top rank im S x) (hy : Top rank im T y) :
    Top rank im (fun i => S i ∨ T i) (op x y) := by
  rw [h.eq]
  split
  · rename_i hle
    refine ⟨fun i hi => ?_, ?_⟩
    · rcases hi with hi | hi
      · exact (hx.1 i hi).trans hle
      · exact hy.1 i hi
    · obtain ⟨i, hi, e⟩ := hy.2
      exact ⟨i, Or.inr hi, e⟩
  · rename_i hle
    refine ⟨fun i hi => ?_, ?_⟩
    · rcases hi with hi | hi
      · exact hx.1 i hi
      · exact (hy.1 i hi).trans (le_of_lt (not_le.1 hle))
    · obtain ⟨i, hi, e⟩ := hx.2
      exact ⟨i, Or.inl hi, e⟩

end TakesMax
open Verif.Arm.TakesMax

variable {K : Type} [LinearOrder K] {rank : F → K} {op : F → F → F}

theorem vxScalar64_top (h : TakesMax rank op) (im : Nat → F) (n c : Nat) (x : F) (hc0 : 0 < c) (hc : c ≤ n)
    (hx : Top rank im (fun i => i < c) x) :
    ∃ y, vxScalar64 op im (n + 1) (x, c, n - c) = some y ∧ Top rank im (fun i => i < n) y := by
  unfold vxScalar64
  by_cases h0 : n - c = 0
  · rw [if_pos h0]
    exact ⟨x, rfl, hx.congr fun i => by omega⟩
  · rw [if_neg h0]
    let S : Nat → F × Nat × Nat := fun k => Nat.rec (x, c, n - c) (fun _ s => (op (im s.2.1) s.1, s.2.1 + 1, s.2.2 - 1)) k
    have hS : ∀ k, (S k).2 = (c + k, n - c - k) := by
      intro k; induction k with
      | zero => rfl
      | succ k ih =>
        show ((S k).2.1 + 1, (S k).2.2 - 1) = _
        rw [ih]; rfl
    have hE : ∀ k, Top rank im (fun i => i < c + k) (S k).1 := by
      intro k; induction k with
      | zero => exact hx
      | succ k ih =>
        show Top rank im _ (op (im (S k).2.1) (S k).1)
        rw [hS]
        exact (Top.join h (Top.one im (c + k)) ih).congr fun i => by omega
    have := doWhile_run (body := vxStep64 op im) (cond := fun s => decide (s.2.2 ≠ 0)) S (n - c) (n + 1)
      (by omega) (by omega) (fun i _ => rfl)
      (fun i _ hi => by
        show decide ((S i).2.2 ≠ 0) = true
        rw [hS, decide_eq_true_eq]; simp only; omega)
      (by
        show decide ((S (n - c)).2.2 ≠ 0) = false
        rw [hS, decide_eq_false_iff_not]; simp)
    refine ⟨(S (n - c)).1, ?_, (hE (n - c)).congr fun i => by omega⟩
    show (doWhile _ _ _ (S 0)).map _ = _
    rw [this]; rfl

theorem across_top (h : TakesMax rank op) (im : Nat → F) (v : Nat → F) (S : Nat → Nat → Prop) (hv : ∀ k, k < 4 → Top rank im (S k) (v k)) :
    Top rank im (fun i => S 0 i ∨ S 1 i ∨ S 2 i ∨ S 3 i) (across op v) :=
  (Top.join h (Top.join h (hv 0 (by omega)) (hv 1 (by omega))) (Top.join h (hv 2 (by omega)) (hv 3 (by omega)))).congr fun i => by tauto

/-- The lane sets of the two accumulators after `c` elements: `v0` has the first group of four of the start and
the first eight of every later sixteen. -/
def lane0 (k c i : Nat) : Prop := i < c ∧ i % 4 = k ∧ (i < 4 ∨ (8 ≤ i ∧ (i - 8) % 16 < 8))
def lane7 (k c i : Nat) : Prop := i < c ∧ i % 4 = k ∧ ((4 ≤ i ∧ i < 8) ∨ (8 ≤ i ∧ 8 ≤ (i - 8) % 16))

theorem vxBlocks_top (h : TakesMax rank op) (im : Nat → F) (n : Nat) (hn : 24 ≤ n) :
    ∃ s, doWhile (vxBlock64 op im) (fun s => decide (s.cnt ≥ 16)) (n + 1) ⟨fun k => im k, fun k => im (4 + k), 8, n - 8⟩ = some s ∧
      s.src = n - (n - 8) % 16 ∧ s.cnt = (n - 8) % 16 ∧ (∀ k < 4, Top rank im (lane0 k (n - (n - 8) % 16)) (s.v0 k)) ∧
      ∀ k < 4, Top rank im (lane7 k (n - (n - 8) % 16)) (s.v7 k) := by
  let S : Nat → StX F := fun j => Nat.rec ⟨fun k => im k, fun k => im (4 + k), 8, n - 8⟩
    (fun _ s => ⟨fun k => op (op (s.v0 k) (im (s.src + k))) (im (s.src + 4 + k)),
      fun k => op (op (s.v7 k) (im (s.src + 8 + k))) (im (s.src + 12 + k)), s.src + 16, s.cnt - 16⟩) j
  have hsrc : ∀ j, (S j).src = 8 + 16 * j := by
    intro j; induction j with
    | zero => rfl
    | succ j ih => show (S j).src + 16 = _; rw [ih]; omega
  have hcnt : ∀ j, (S j).cnt = n - 8 - 16 * j := by
    intro j; induction j with
    | zero => rfl
    | succ j ih => show (S j).cnt - 16 = _; rw [ih]; omega
  have h0 : ∀ j, ∀ k < 4, Top rank im (lane0 k (8 + 16 * j)) ((S j).v0 k) := by
    intro j; induction j with
    | zero =>
      intro k hk
      refine (Top.one im k).congr fun i => ?_
      unfold lane0; omega
    | succ j ih =>
      intro k hk
      show Top rank im _ (op (op ((S j).v0 k) (im ((S j).src + k))) (im ((S j).src + 4 + k)))
      rw [hsrc]
      refine (Top.join h (Top.join h (ih k hk) (Top.one im _)) (Top.one im _)).congr fun i => ?_
      unfold lane0; omega
  have h7 : ∀ j, ∀ k < 4, Top rank im (lane7 k (8 + 16 * j)) ((S j).v7 k) := by
    intro j; induction j with
    | zero =>
      intro k hk
      refine (Top.one im (4 + k)).congr fun i => ?_
      unfold lane7; omega
    | succ j ih =>
      intro k hk
      show Top rank im _ (op (op ((S j).v7 k) (im ((S j).src + 8 + k))) (im ((S j).src + 12 + k)))
      rw [hsrc]
      refine (Top.join h (Top.join h (ih k hk) (Top.one im _)) (Top.one im _)).congr fun i => ?_
      unfold lane7; omega
  have := doWhile_run (body := vxBlock64 op im) (cond := fun s => decide (s.cnt ≥ 16)) S ((n - 8) / 16) (n + 1)
    (by omega) (by omega) (fun i _ => rfl)
    (fun i _ hi => by
      show decide ((S i).cnt ≥ 16) = true
      rw [hcnt, decide_eq_true_eq]; omega)
    (by
      show decide ((S ((n - 8) / 16)).cnt ≥ 16) = false
      rw [hcnt, decide_eq_false_iff_not]; omega)
  have e : 8 + 16 * ((n - 8) / 16) = n - (n - 8) % 16 := by omega
  refine ⟨S ((n - 8) / 16), this, ?_, ?_, ?_, ?_⟩
  · rw [hsrc, e]
  · rw [hcnt]; omega
  · rw [← e]; exact h0 _
  · rw [← e]; exact h7 _

theorem vExtremeArm64_top (h : TakesMax rank op) (init : F) (hid : ∀ a, op a init = a) (n : Nat) (im : Nat → F) :
    ∃ y, vExtremeArm64 op init n im = some y ∧ (n = 0 → y = init) ∧ (0 < n → Top rank im (fun i => i < n) y) := by
  unfold vExtremeArm64
  by_cases hn : n < 24
  · rw [if_pos hn]
    rcases Nat.eq_zero_or_pos n with hz | hz
    · subst hz; exact ⟨init, rfl, fun _ => rfl, fun h => by omega⟩
    · have e : vxScalar64 op im (n + 1) (init, 0, n) = vxScalar64 op im (n + 1) (im 0, 1, n - 1) := by
        unfold vxScalar64
        simp only
        rw [if_neg (by omega), doWhile, vxStep64, Option.bind_some]
        simp only [hid]
        by_cases h1 : n - 1 = 0
        · rw [if_neg (by simp [h1]), if_pos h1]; rfl
        · rw [if_pos (by simp [h1]), if_neg h1]
          -- one unit of fuel less
          have key := vxScalar64_top h im n 1 (im 0) (by omega) hz ((Top.one im 0).congr fun i => by omega)
          obtain ⟨y, hy, -⟩ := key
          unfold vxScalar64 at hy
          simp only at hy
          rw [if_neg h1] at hy
          have run : ∀ fuel, n - 1 ≤ fuel → ∃ z, doWhile (vxStep64 op im) (fun s => decide (s.2.2 ≠ 0)) fuel (im 0, 1, n - 1) = some z ∧
              ∀ fuel', n - 1 ≤ fuel' → doWhile (vxStep64 op im) (fun s => decide (s.2.2 ≠ 0)) fuel' (im 0, 1, n - 1) = some z := by
            intro fuel hf
            let S : Nat → F × Nat × Nat := fun k => Nat.rec (im 0, 1, n - 1) (fun _ s => (op (im s.2.1) s.1, s.2.1 + 1, s.2.2 - 1)) k
            have hS : ∀ k, (S k).2 = (1 + k, n - 1 - k) := by
              intro k; induction k with
              | zero => rfl
              | succ k ih =>
                show ((S k).2.1 + 1, (S k).2.2 - 1) = _
                rw [ih]; rfl
            have all : ∀ fuel', n - 1 ≤ fuel' → doWhile (vxStep64 op im) (fun s => decide (s.2.2 ≠ 0)) fuel' (S 0) = some (S (n - 1)) := by
              intro fuel' hf'
              exact doWhile_run (body := vxStep64 op im) (cond := fun s => decide (s.2.2 ≠ 0)) S (n - 1) fuel'
                (by omega) (by omega) (fun i _ => rfl)
                (fun i _ hi => by
                  show decide ((S i).2.2 ≠ 0) = true
                  rw [hS, decide_eq_true_eq]; simp only; omega)
                (by
                  show decide ((S (n - 1)).2.2 ≠ 0) = false
                  rw [hS, decide_eq_false_iff_not]; simp)
            exact ⟨_, all fuel hf, all⟩
          obtain ⟨z, -, hz2⟩ := run n (by omega)
          rw [hz2 n (by omega), hz2 (n + 1) (by omega)]
      rw [e]
      obtain ⟨y, hy, ht⟩ := vxScalar64_top h im n 1 (im 0) (by omega) hz ((Top.one im 0).congr fun i => by omega)
      exact ⟨y, hy, fun h => by omega, fun _ => ht⟩
  · rw [if_neg hn]
    obtain ⟨s, hs, hsrc, hcnt, h0, h7⟩ := vxBlocks_top h im n (by omega)
    simp only
    rw [hs, Option.bind_some]
    have t := Top.join h (across_top h im s.v0 _ h0) (across_top h im s.v7 _ h7)
    have e : s.cnt = n - s.src := by rw [hsrc, hcnt]; omega
    rw [e]
    obtain ⟨y, hy, ht⟩ := vxScalar64_top h im n s.src (op (across op s.v0) (across op s.v7)) (by omega) (by omega)
      (t.congr fun i => by
        rw [hsrc]
        unfold lane0 lane7
        omega)
    exact ⟨y, hy, fun h => by omega, fun _ => ht⟩

/-- The rank of `FMAX`: a NaN before everything, then by value, +0 before −0. -/
def rankMax (a : Val) : (Bool ×ₗ WithBot (WithTop ℚ)) ×ₗ Bool := toLex (toLex (decide (a = .nan), key a), !isNeg a)
/-- The rank of `FMIN`. -/
def rankMin (a : Val) : (Bool ×ₗ (WithBot (WithTop ℚ))ᵒᵈ) ×ₗ Bool := toLex (toLex (decide (a = .nan), OrderDual.toDual (key a)), isNeg a)

theorem key_inj (a b : Val) (ha : a ≠ .nan) (hb : b ≠ .nan) (hk : key a = key b) (hs : isNeg a = isNeg b) : a = b := by
  rcases a with _ | s | ⟨s, q⟩
  · exact absurd rfl ha
  · rcases b with _ | t | ⟨t, r⟩
    · exact absurd rfl hb
    · have e : s = t := hs
      rw [e]
    · cases s <;> simp [key] at hk
  · rcases b with _ | t | ⟨t, r⟩
    · exact absurd rfl hb
    · cases t <;> simp [key] at hk
    · have e : s = t := hs
      subst e
      have : (Val.fin s q).toRat = (Val.fin s r).toRat := WithTop.coe_injective (WithBot.coe_injective hk)
      cases s <;> simp [Val.toRat] at this <;> rw [this]

theorem rankMax_inj (a b : Val) (h : rankMax a = rankMax b) : a = b := by
  unfold rankMax at h
  have h := toLex_inj.1 h
  rw [Prod.mk.injEq, toLex_inj, Prod.mk.injEq] at h
  obtain ⟨⟨h1, h2⟩, h3⟩ := h
  by_cases ha : a = .nan
  · rw [ha] at h1 ⊢
    simp at h1
    exact h1.symm
  · have hb : b ≠ .nan := by
      intro hb
      rw [hb] at h1
      simp [ha] at h1
    exact key_inj a b ha hb h2 (by simpa using h3)

theorem rankMin_inj (a b : Val) (h : rankMin a = rankMin b) : a = b := by
  unfold rankMin at h
  have h := toLex_inj.1 h
  rw [Prod.mk.injEq, toLex_inj, Prod.mk.injEq] at h
  obtain ⟨⟨h1, h2⟩, h3⟩ := h
  by_cases ha : a = .nan
  · rw [ha] at h1 ⊢
    simp at h1
    exact h1.symm
  · have hb : b ≠ .nan := by
      intro hb
      rw [hb] at h1
      simp [ha] at h1
    exact key_inj a b ha hb (OrderDual.toDual_inj.1 h2) h3

theorem fmax_isMax : TakesMax rankMax fmax := by
  refine ⟨rankMax_inj, fun a b => ?_⟩
  unfold fmax rankMax
  simp only [Prod.Lex.toLex_le_toLex]
  by_cases ha : a = .nan
  · subst ha
    rw [if_pos rfl]
    by_cases hb : b = .nan
    · subst hb; simp
    · rw [if_neg]
      rw [Prod.Lex.toLex_lt_toLex, toLex_inj]
      simp [hb]
  rw [if_neg ha]
  by_cases hb : b = .nan
  · subst hb
    rw [if_pos rfl, if_pos]
    left
    rw [Prod.Lex.toLex_lt_toLex]
    simp [ha]
  rw [if_neg hb]
  have l1 := lt_iff b a
  have l2 := lt_iff a b
  simp only [ne_eq, ha, hb, not_false_eq_true, true_and] at l1 l2
  simp only [ha, hb, decide_false, Prod.Lex.toLex_lt_toLex, toLex_inj, Prod.mk.injEq, true_and, lt_self_iff_false, false_or]
  simp only [l1, l2]
  rcases lt_trichotomy (key a) (key b) with hk | hk | hk
  · rw [if_neg (not_lt_of_gt hk), if_pos hk, if_pos (Or.inl hk)]
  · rw [if_neg (by rw [hk]; exact lt_irrefl _), if_neg (by rw [hk]; exact lt_irrefl _)]
    by_cases hs : isNeg a = true
    · rw [if_pos hs, if_pos]
      right
      refine ⟨hk, ?_⟩
      rw [hs]
      exact Bool.false_le _
    · rw [if_neg hs]
      have hs' : isNeg a = false := by simpa using hs
      by_cases ht : isNeg b = true
      · rw [if_neg]
        rw [hk, hs', ht]
        simp
      · have ht' : isNeg b = false := by simpa using ht
        have e : a = b := key_inj a b ha hb hk (by rw [hs', ht'])
        subst e
        split <;> rfl
  · rw [if_pos hk, if_neg]
    rintro (h | ⟨h, -⟩)
    · exact lt_asymm h hk
    · rw [h] at hk; exact lt_irrefl _ hk

theorem fmin_isMax : TakesMax rankMin fmin := by
  refine ⟨rankMin_inj, fun a b => ?_⟩
  unfold fmin rankMin
  simp only [Prod.Lex.toLex_le_toLex]
  by_cases ha : a = .nan
  · subst ha
    rw [if_pos rfl]
    by_cases hb : b = .nan
    · subst hb; simp
    · rw [if_neg]
      rw [Prod.Lex.toLex_lt_toLex, toLex_inj]
      simp [hb]
  rw [if_neg ha]
  by_cases hb : b = .nan
  · subst hb
    rw [if_pos rfl, if_pos]
    left
    rw [Prod.Lex.toLex_lt_toLex]
    simp [ha]
  rw [if_neg hb]
  have l1 := lt_iff b a
  have l2 := lt_iff a b
  simp only [ne_eq, ha, hb, not_false_eq_true, true_and] at l1 l2
  simp only [ha, hb, decide_false, Prod.Lex.toLex_lt_toLex, toLex_inj, Prod.mk.injEq, true_and, lt_self_iff_false, false_or,
    OrderDual.toDual_lt_toDual, OrderDual.toDual_inj]
  simp only [l1, l2]
  rcases lt_trichotomy (key a) (key b) with hk | hk | hk
  · rw [if_pos hk, if_neg]
    rintro (h | ⟨h, -⟩)
    · exact lt_asymm h hk
    · rw [h] at hk; exact lt_irrefl _ hk
  · rw [if_neg (by rw [hk]; exact lt_irrefl _), if_neg (by rw [hk]; exact lt_irrefl _)]
    by_cases hs : isNeg a = true
    · rw [if_pos hs]
      by_cases ht : isNeg b = true
      · have e : a = b := key_inj a b ha hb hk (by rw [hs, ht])
        subst e
        split <;> rfl
      · have ht' : isNeg b = false := by simpa using ht
        rw [if_neg]
        rw [hk, hs, ht']
        simp
    · rw [if_neg hs, if_pos]
      right
      refine ⟨hk, ?_⟩
      have hs' : isNeg a = false := by simpa using hs
      rw [hs']
      exact Bool.false_le _
  · rw [if_neg (not_lt_of_gt hk), if_pos hk, if_pos (Or.inl hk)]

theorem fmax_id (a : Val) : fmax a (.inf true) = a := by
  rcases a with _ | s | ⟨s, q⟩
  · rfl
  · cases s <;> simp [fmax, lt, isNeg]
  · simp [fmax, lt]

theorem fmin_id (a : Val) : fmin a (.inf false) = a := by
  rcases a with _ | s | ⟨s, q⟩
  · rfl
  · cases s <;> simp [fmin, lt, isNeg]
  · simp [fmin, lt]

theorem rankMax_le_nan (a : Val) : rankMax .nan ≤ rankMax a ↔ a = .nan := by
  constructor
  · intro h
    by_contra ha
    unfold rankMax at h
    rw [Prod.Lex.toLex_le_toLex, Prod.Lex.toLex_lt_toLex, toLex_inj] at h
    simp [ha] at h
    exact absurd h (by decide)
  · rintro rfl; exact le_refl _

theorem rankMin_le_nan (a : Val) : rankMin .nan ≤ rankMin a ↔ a = .nan := by
  constructor
  · intro h
    by_contra ha
    unfold rankMin at h
    rw [Prod.Lex.toLex_le_toLex, Prod.Lex.toLex_lt_toLex, toLex_inj] at h
    simp [ha] at h
    exact absurd h (by decide)
  · rintro rfl; exact le_refl _

theorem rankMax_le (a b : Val) (ha : a ≠ .nan) (hb : b ≠ .nan) (h : rankMax a ≤ rankMax b) : key a ≤ key b := by
  unfold rankMax at h
  rw [Prod.Lex.toLex_le_toLex, Prod.Lex.toLex_lt_toLex, toLex_inj] at h
  simp only [ha, hb, decide_false, lt_self_iff_false, false_or, true_and, Prod.mk.injEq] at h
  rcases h with h | ⟨h, -⟩
  · exact h.le
  · exact h.le

theorem rankMin_le (a b : Val) (ha : a ≠ .nan) (hb : b ≠ .nan) (h : rankMin a ≤ rankMin b) : key b ≤ key a := by
  unfold rankMin at h
  rw [Prod.Lex.toLex_le_toLex, Prod.Lex.toLex_lt_toLex, toLex_inj] at h
  simp only [ha, hb, decide_false, lt_self_iff_false, false_or, true_and, Prod.mk.injEq, OrderDual.toDual_lt_toDual, OrderDual.toDual_inj] at h
  rcases h with h | ⟨h, -⟩
  · exact h.le
  · exact h.ge

/-- C80 (partial: the same value as the portable code only without NaNs; see `C80_nan`).  The result of the arm64
`VMaxF32` is an element of the slice, at least as large as every other, at the portable maximum; of an empty slice
it is −∞. -/
theorem C80_max_partial (n : Nat) (im : Nat → Val) (hn : ∀ i, i < n → im i ≠ .nan) :
    ∃ y, vExtremeArm64 fmax (.inf true) n im = some y ∧ y ≠ .nan ∧ (n = 0 → y = .inf true) ∧ (0 < n → ∃ i, i < n ∧ y = im i) ∧
      (∀ i, i < n → key (im i) ≤ key y) ∧ key y = key (vExtreme gtF (.inf true) ((List.range n).map im)) := by
  obtain ⟨y, hy, h0, ht⟩ := vExtremeArm64_top fmax_isMax (.inf true) fmax_id n im
  have hy0 : y ≠ .nan := by
    rcases Nat.eq_zero_or_pos n with hz | hz
    · rw [h0 hz]; simp
    · obtain ⟨i, hi, e⟩ := (ht hz).2
      rw [e]; exact hn i hi
  have hge : ∀ i, i < n → key (im i) ≤ key y := fun i hi => rankMax_le _ _ (hn i hi) hy0 ((ht (by omega)).1 i hi)
  have hmem : 0 < n → ∃ i, i < n ∧ y = im i := fun hz => (ht hz).2
  refine ⟨y, hy, hy0, h0, hmem, hge, ?_⟩
  refine IsExt.unique (good := fun v => v ≠ .nan) (init := .inf true) (im := im) (S := fun i => i < n)
    ⟨hy0, bot_le, fun i hi _ => hge i hi, ?_⟩ (vExtreme_isExt gtF_iff (by simp) im n)
  rcases Nat.eq_zero_or_pos n with hz | hz
  · exact Or.inl (h0 hz)
  · exact Or.inr (hmem hz)

/-- C80 for `VMinF32` (partial in the same way). -/
theorem C80_min_partial (n : Nat) (im : Nat → Val) (hn : ∀ i, i < n → im i ≠ .nan) :
    ∃ y, vExtremeArm64 fmin (.inf false) n im = some y ∧ y ≠ .nan ∧ (n = 0 → y = .inf false) ∧ (0 < n → ∃ i, i < n ∧ y = im i) ∧
      (∀ i, i < n → key y ≤ key (im i)) ∧ key y = key (vExtreme ltF (.inf false) ((List.range n).map im)) := by
  obtain ⟨y, hy, h0, ht⟩ := vExtremeArm64_top fmin_isMax (.inf false) fmin_id n im
  have hy0 : y ≠ .nan := by
    rcases Nat.eq_zero_or_pos n with hz | hz
    · rw [h0 hz]; simp
    · obtain ⟨i, hi, e⟩ := (ht hz).2
      rw [e]; exact hn i hi
  have hge : ∀ i, i < n → key y ≤ key (im i) := fun i hi => rankMin_le _ _ (hn i hi) hy0 ((ht (by omega)).1 i hi)
  have hmem : 0 < n → ∃ i, i < n ∧ y = im i := fun hz => (ht hz).2
  refine ⟨y, hy, hy0, h0, hmem, hge, ?_⟩
  have := IsExt.unique (good := fun v => v ≠ .nan) (key' := fun v => OrderDual.toDual (key v)) (init := .inf false) (im := im)
    (S := fun i => i < n) (x := y) (y := vExtreme ltF (.inf false) ((List.range n).map im))
    ⟨hy0, ?_, fun i hi _ => hge i hi, ?_⟩ (vExtreme_isExt ltF_iff (by simp) im n)
  · exact OrderDual.toDual_inj.1 this
  · rw [OrderDual.toDual_le_toDual]
    exact le_top
  · rcases Nat.eq_zero_or_pos n with hz | hz
    · exact Or.inl (h0 hz)
    · exact Or.inr (hmem hz)

/-- C80 is violated by every slice with a NaN, of any length: both arm64 routines then return a NaN, the portable
ones never do. -/
theorem C80_violated_nan (n : Nat) (im : Nat → Val) (hn : ∃ i, i < n ∧ im i = .nan) :
    vExtremeArm64 fmax (.inf true) n im = some .nan ∧ vExtremeArm64 fmin (.inf false) n im = some .nan ∧
      vExtreme gtF (.inf true) ((List.range n).map im) ≠ .nan ∧ vExtreme ltF (.inf false) ((List.range n).map im) ≠ .nan := by
  obtain ⟨i, hi, e⟩ := hn
  refine ⟨?_, ?_, (vExtreme_isExt gtF_iff (by simp) im n).isGood, (vExtreme_isExt ltF_iff (by simp) im n).isGood⟩
  · obtain ⟨y, hy, -, ht⟩ := vExtremeArm64_top fmax_isMax (.inf true) fmax_id n im
    have := (ht (by omega)).1 i hi
    rw [e, rankMax_le_nan] at this
    rw [hy, this]
  · obtain ⟨y, hy, -, ht⟩ := vExtremeArm64_top fmin_isMax (.inf false) fmin_id n im
    have := (ht (by omega)).1 i hi
    rw [e, rankMin_le_nan] at this
    rw [hy, this]

/-- The order of the elements does not matter on arm64, not even for zeros: equal sets of elements give equal
results. -/
theorem C80_order (n m : Nat) (f g : Nat → Val) (h1 : ∀ i, i < n → ∃ j, j < m ∧ f i = g j) (h2 : ∀ j, j < m → ∃ i, i < n ∧ g j = f i) :
    vExtremeArm64 fmax (.inf true) n f = vExtremeArm64 fmax (.inf true) m g ∧
      vExtremeArm64 fmin (.inf false) n f = vExtremeArm64 fmin (.inf false) m g := by
  have gen : ∀ {K : Type} [LinearOrder K] (rank : Val → K) (op : Val → Val → Val) (init : Val), TakesMax rank op →
      (∀ a, op a init = a) → vExtremeArm64 op init n f = vExtremeArm64 op init m g := by
    intro K _ rank op init h hid
    obtain ⟨y, hy, y0, yt⟩ := vExtremeArm64_top h init hid n f
    obtain ⟨z, hz, z0, zt⟩ := vExtremeArm64_top h init hid m g
    rw [hy, hz]
    rcases Nat.eq_zero_or_pos n with hn | hn
    · have hm : m = 0 := by
        by_contra hm
        obtain ⟨i, hi, -⟩ := h2 0 (by omega)
        omega
      rw [y0 hn, z0 hm]
    · have hm : 0 < m := by
        obtain ⟨j, hj, -⟩ := h1 0 hn
        omega
      obtain ⟨ya, i, hi, yi⟩ := yt hn
      obtain ⟨za, j, hj, zj⟩ := zt hm
      refine congrArg some (h.inj _ _ (le_antisymm ?_ ?_))
      · obtain ⟨k, hk, e⟩ := h1 i hi
        rw [yi, e]; exact za k hk
      · obtain ⟨k, hk, e⟩ := h2 j hj
        rw [zj, e]; exact ya k hk
  exact ⟨gen rankMax fmax _ fmax_isMax fmax_id, gen rankMin fmin _ fmin_isMax fmin_id⟩

/-- A slice of 43 elements with its maximum in the last element of the blocks, and zeros of both signs. -/
example : vExtremeArm64 fmax (.inf true) 43 (fun i => if i = 39 then .fin false 7 else .fin true i) = some (.fin false 7) ∧
    vExtremeArm64 fmin (.inf false) 43 (fun i => if i = 39 then .fin false 7 else .fin true i) = some (.fin true 42) ∧
    vExtremeArm64 fmax (.inf true) 2 (fun i => .fin (i == 0) 0) = some (.fin false 0) ∧
    vExtreme gtF (.inf true) [.fin true 0, .fin false 0] = .fin true 0 := by decide +kernel
example : ∃ i, i < 30 ∧ (fun i : Nat => if i = 29 then Val.nan else .fin false 1) i = .nan := ⟨29, by decide, rfl⟩

end Verif.Arm
