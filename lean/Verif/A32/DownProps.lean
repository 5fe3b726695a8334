import Verif.A32.DownLemmas
import Verif.A32.DemodProps
import Verif.Arm.DownArmProps
import Verif.Down.DownFp

/-!
# Property C135: the instructions of the decimating filters on 32-bit ARM

The lines of dsp/downsample_arm.s are run one by one.
-/

namespace Verif.A32.Down
open Verif.A32 Verif.Mach Verif.Fp
open Verif.Conv (Slice)
open Verif.Down (LPD LPR contents after push overwrite)
open Verif.A32.Demod (pairAt)
open Verif.A32.Math (Ieee)
open Verif.X86 (byte bytes32)

/-! ### What a call needs and leaves behind -/

/-- The frame of a call: the filter at `fi`, the slice with `n` elements at `ib`. -/
structure Call (s : St) (fi ib : BitVec 32) (n : Nat) : Prop where
  hn : n < 2 ^ 31
  a0 : s.fp 0 = fi
  a1 : s.fp 4 = ib
  a2 : s.fp 8 = BitVec.ofNat 32 n

/-- The filter and the slice of `v` bytes can be read and written, are aligned and do not overlap. -/
structure Places (e : Env) (fi ib : BitVec 32) (v : Nat) : Prop where
  filt : Filt e fi
  slice : Place e ib v
  apart : ∀ i < 16, v ≤ (fi + BitVec.ofNat 32 i - ib).toNat

/-- Complex numbers as two words, with the addition of the machine. -/
structure WC (o : Ops) where
  w : BitVec 32 × BitVec 32
instance (o : Ops) : Add (WC o) := ⟨fun a b => ⟨(o.add a.w.1 b.w.1, o.add a.w.2 b.w.2)⟩⟩
instance (o : Ops) : Zero (WC o) := ⟨⟨(0, 0)⟩⟩

/-- Numbers as words, with the arithmetic of the machine. -/
structure WF (o : Ops) where
  w : BitVec 32
instance (o : Ops) : Add (WF o) := ⟨fun a b => ⟨o.add a.w b.w⟩⟩
instance (o : Ops) : Mul (WF o) := ⟨fun a b => ⟨o.mul a.w b.w⟩⟩
instance (o : Ops) : Div (WF o) := ⟨fun a b => ⟨o.div a.w b.w⟩⟩
instance (o : Ops) : Zero (WF o) := ⟨⟨0⟩⟩

/-- The conversion of integers on the machine. -/
def conv (o : Ops) (z : Int) : WF o := ⟨o.cvt z⟩

/-- The `LowPassDownsampleComplexFilter` at an address, dsp/downsample.go:3-8. -/
def lpdAt (o : Ops) (m : BitVec 32 → BitVec 8) (fi : BitVec 32) : LPD (WC o) :=
  ⟨(u32at m fi).toInt, ⟨pairAt m (fi + BitVec.ofNat 32 4)⟩, (u32at m (fi + BitVec.ofNat 32 12)).toInt⟩

/-- The `LowPassDownsampleRationalFilter` at an address, dsp/downsample.go:33-38. -/
def lprAt (o : Ops) (m : BitVec 32 → BitVec 8) (fi : BitVec 32) : LPR (WF o) :=
  ⟨(u32at m fi).toInt, (u32at m (fi + BitVec.ofNat 32 4)).toInt, ⟨u32at m (fi + BitVec.ofNat 32 8)⟩, (u32at m (fi + BitVec.ofNat 32 12)).toInt⟩

/-- The complex numbers from an address on. -/
def pairs (o : Ops) (m : BitVec 32 → BitVec 8) (ib : BitVec 32) (i : Nat) : WC o := ⟨pairAt m (ib + BitVec.ofNat 32 (8 * i))⟩

/-- The numbers from an address on. -/
def values (o : Ops) (m : BitVec 32 → BitVec 8) (ib : BitVec 32) (i : Nat) : WF o := ⟨u32at m (ib + BitVec.ofNat 32 (4 * i))⟩

/-- What both filters leave alone, and the slice of `k` elements that is returned. -/
structure Frame (fi ib : BitVec 32) (v k : Nat) (s s' : St) : Prop where
  rest : ∀ a, v ≤ (a - ib).toNat → 16 ≤ (a - fi).toNat → s'.mem a = s.mem a
  ptr : s'.fp 16 = s.fp 4
  len : s'.fp 20 = BitVec.ofNat 32 k
  cap : s'.fp 24 = s.fp 12
  frame : ∀ j, j ≠ 16 → j ≠ 20 → j ≠ 24 → s'.fp j = s.fp j

/-- After a call of the complex filter: the filter, the slice and the length returned are what the portable code makes of them. -/
structure FilteredC (o : Ops) (fi ib : BitVec 32) (n k : Nat) (s s' : St) : Prop extends Frame fi ib (8 * n) k s s' where
  run : ∃ m', (lpdAt o s.mem fi).filter (pairs o s.mem ib) ⟨0, n⟩ = some (m', lpdAt o s'.mem fi, ⟨0, k⟩) ∧ ∀ j < n, m' j = pairs o s'.mem ib j

/-- After a call of the rational filter. -/
structure FilteredQ (o : Ops) (fi ib : BitVec 32) (n k : Nat) (s s' : St) : Prop extends Frame fi ib (4 * n) k s s' where
  run : ∃ m', (lprAt o s.mem fi).filter (conv o) (values o s.mem ib) ⟨0, n⟩ = some (m', lprAt o s'.mem fi, ⟨0, k⟩) ∧
    ∀ j < n, m' j = values o s'.mem ib j

/-! ### Lemmas -/

theorem put_out {m : BitVec 32 → BitVec 8} {a b w : BitVec 32} (h : 4 ≤ (a - b).toNat) : put m b w a = m a := fill_out h

theorem put_at (m : BitVec 32 → BitVec 8) (a w : BitVec 32) : u32at (put m a w) a = w := by
  refine Demod.u32at_of fun j hj => ?_
  unfold put
  rw [fill_in hj (by decide)]
  unfold bytes32
  rw [if_pos hj]

theorem off_sub {a b : BitVec 32} {k : Nat} (hk : k ≤ (a - b).toNat) : (a - (b + BitVec.ofNat 32 k)).toNat = (a - b).toNat - k := by
  have := (a - b).isLt
  rw [← BitVec.sub_sub, BitVec.toNat_sub_of_le]
  · rw [toNat32 (by omega)]
  · rw [BitVec.le_def, toNat32 (by omega)]
    exact hk

theorem put_far {m : BitVec 32 → BitVec 8} {a fi w : BitVec 32} {k : Nat} (hk : k ≤ 12) (h : 16 ≤ (a - fi).toNat) :
    put m (fi + BitVec.ofNat 32 k) w a = m a := by
  refine put_out ?_
  rw [off_sub (by omega)]
  omega

theorem off_add (fi : BitVec 32) (j : Nat) (hj : j < 2 ^ 32) : (fi + BitVec.ofNat 32 j - fi).toNat = j := by
  rw [BitVec.add_comm, BitVec.add_sub_cancel, toNat32 hj]

/-- A word of the filter is not changed by a store to another one. -/
theorem put_word {m : BitVec 32 → BitVec 8} {fi w : BitVec 32} {j k : Nat} (hj : j ≤ 12) (hk : k ≤ 12) (h : j + 4 ≤ k ∨ k + 4 ≤ j) :
    u32at (put m (fi + BitVec.ofNat 32 k) w) (fi + BitVec.ofNat 32 j) = u32at m (fi + BitVec.ofNat 32 j) := by
  refine Demod.u32at_congr fun i hi => put_out ?_
  rw [adv]
  rcases h with h | h
  · have e : (fi + BitVec.ofNat 32 (j + i) - (fi + BitVec.ofNat 32 k)) = BitVec.ofNat 32 (j + i) - BitVec.ofNat 32 k := by
      rw [← BitVec.sub_sub, BitVec.add_comm, BitVec.add_sub_cancel]
    rw [e, BitVec.toNat_sub, toNat32 (by omega), toNat32 (by omega)]
    omega
  · rw [off_sub (by rw [off_add _ _ (by omega)]; omega), off_add _ _ (by omega)]
    omega

theorem fill_word {m : BitVec 32 → BitVec 8} {e : Env} {fi ib : BitVec 32} {v u : Nat} {g : Nat → BitVec 8} (h : Places e fi ib v) (hu : u ≤ v) {j : Nat}
    (hj : j ≤ 12) : u32at (fill m ib u g) (fi + BitVec.ofNat 32 j) = u32at m (fi + BitVec.ofNat 32 j) := by
  refine Demod.u32at_congr fun i hi => fill_out ?_
  rw [adv]
  exact le_trans hu (h.apart _ (by omega))

theorem clear {e : Env} {fi ib : BitVec 32} {v k : Nat} (h : Places e fi ib v) (hk : k < v) : 16 ≤ (ib + BitVec.ofNat 32 k - fi).toNat := by
  by_contra c
  have := h.apart _ (not_le.1 c)
  rw [← Demod.near, off_add ib k (by have := h.slice.small; omega)] at this
  omega

theorem bytesC_at {l : List (BitVec 32 × BitVec 32)} {m : BitVec 32 → BitVec 8} {ib : BitVec 32} {j : Nat} (hj : j < l.length) (hl : 8 * l.length ≤ 2 ^ 32) :
    pairAt (fill m ib (8 * l.length) (bytesC l)) (ib + BitVec.ofNat 32 (8 * j)) = l[j] := by
  have hd : l.getD j (0, 0) = l[j] := by rw [List.getD_eq_getElem?_getD, List.getElem?_eq_getElem hj]; rfl
  refine Prod.ext (Demod.u32at_of fun i hi => ?_) (Demod.u32at_of fun i hi => ?_)
  · rw [adv, fill_in (by omega) hl, bytesC, if_pos (by omega), show (8 * j + i) / 8 = j by omega, show (8 * j + i) % 4 = i by omega, hd]
  · rw [adv, adv, fill_in (by omega) hl, bytesC, if_neg (by omega), show (8 * j + (4 + i)) / 8 = j by omega, show (8 * j + (4 + i)) % 4 = i by omega, hd]

theorem bytesF_at {l : List (BitVec 32)} {m : BitVec 32 → BitVec 8} {ib : BitVec 32} {j : Nat} (hj : j < l.length) (hl : 4 * l.length ≤ 2 ^ 32) :
    u32at (fill m ib (4 * l.length) (bytesF l)) (ib + BitVec.ofNat 32 (4 * j)) = l[j] := by
  have hd : l.getD j 0 = l[j] := by rw [List.getD_eq_getElem?_getD, List.getElem?_eq_getElem hj]; rfl
  refine Demod.u32at_of fun i hi => ?_
  rw [adv, fill_in (by omega) hl, bytesF, show (4 * j + i) / 4 = j by omega, show (4 * j + i) % 4 = i by omega, hd]

theorem pairAt_congr {m m' : BitVec 32 → BitVec 8} {a : BitVec 32} (h : ∀ j < 8, m (a + BitVec.ofNat 32 j) = m' (a + BitVec.ofNat 32 j)) :
    pairAt m a = pairAt m' a := by
  refine Prod.ext (Demod.u32at_congr fun j hj => h j (by omega)) (Demod.u32at_congr fun j hj => ?_)
  rw [adv]
  exact h _ (by omega)

theorem frame_of {fi ib : BitVec 32} {v k : Nat} {s s' : St} (h1 : s'.fp = ret s.fp k) (h2 : ∀ a, v ≤ (a - ib).toNat → 16 ≤ (a - fi).toNat → s'.mem a = s.mem a) :
    Frame fi ib v k s s' := by
  refine ⟨h2, ?_, ?_, ?_, ?_⟩
  · rw [h1]; rfl
  · rw [h1]; rfl
  · rw [h1]; rfl
  · intro j a b c
    rw [h1, ret, Function.update_of_ne a, Function.update_of_ne c, Function.update_of_ne b]

theorem contents_succ {C : Type} (m : Nat → C) (k : Nat) : contents m ⟨0, k + 1⟩ = contents m ⟨0, k⟩ ++ [m k] := by
  unfold contents
  rw [List.range_succ, List.map_append, List.map_singleton, Nat.zero_add]

theorem sample_pair (m0 : BitVec 32 → BitVec 8) (ib : BitVec 32) (k : Nat) : Demod.sample m0 ib k = pairAt m0 (ib + BitVec.ofNat 32 (8 * k)) := by
  unfold Demod.sample pairAt
  rw [adv]

/-- The words of the complex filter and the step machine of C49. -/
theorem runC_after (o : Ops) (D : BitVec 32) (a : BitVec 32 × BitVec 32) (p : BitVec 32) (m0 : BitVec 32 → BitVec 8) (ib : BitVec 32)
    (hp : p.toInt ≠ 2 ^ 31 - 1) (k : Nat) {t : WC o × Int × List (WC o)}
    (ht : t = after (C := WC o) D.toInt 1 (fun _ => 0) id ⟨a⟩ p.toInt (contents (pairs o m0 ib) ⟨0, k⟩)) :
    runC o D a p m0 ib k = (t.1.w, BitVec.ofInt 32 t.2.1, t.2.2.map WC.w) ∧ -2 ^ 31 ≤ t.2.1 ∧ t.2.1 < 2 ^ 31 - 1 := by
  induction k generalizing t with
  | zero =>
    subst ht
    have h1 := BitVec.toInt_lt (x := p)
    have h2 := BitVec.le_toInt p
    refine ⟨?_, ?_, ?_⟩
    · show (a, p, []) = (_, BitVec.ofInt 32 p.toInt, _)
      rw [BitVec.ofInt_toInt]
      rfl
    · show -2 ^ 31 ≤ p.toInt
      omega
    · show p.toInt < 2 ^ 31 - 1
      omega
  | succ k ih =>
    obtain ⟨u, hu⟩ : ∃ u, u = after (C := WC o) D.toInt 1 (fun _ => 0) id ⟨a⟩ p.toInt (contents (pairs o m0 ib) ⟨0, k⟩) := ⟨_, rfl⟩
    obtain ⟨i1, i2, i3⟩ := ih hu
    have ht' : t = push D.toInt 1 (fun _ => 0) id u (pairs o m0 ib k) := by
      rw [ht, contents_succ, hu]
      unfold after
      rw [List.foldl_append]
      rfl
    rw [runC, i1, ht', push, sample_pair]
    unfold stepC
    have ew : BitVec.ofInt 32 u.2.1 + 1#32 = BitVec.ofInt 32 (u.2.1 + 1) := by rw [BitVec.ofInt_add]; rfl
    have ec : (BitVec.ofInt 32 (u.2.1 + 1)).slt D = decide (u.2.1 + 1 < D.toInt) := by
      rw [BitVec.slt, Arm.word_toInt32 _ (by omega) (by omega)]
    simp only [ew, ec]
    have hD := BitVec.toInt_lt (x := D)
    by_cases c : u.2.1 + 1 < D.toInt
    · rw [if_pos (by simpa using c), if_pos c]
      refine ⟨rfl, ?_, ?_⟩
      · simp only; omega
      · simp only; omega
    · rw [if_neg (by simpa using c), if_neg c]
      refine ⟨by rw [List.map_append]; rfl, ?_, ?_⟩
      · simp only; omega
      · simp only; omega

/-- The words of the rational filter and the step machine of C50. -/
theorem runQ_after (o : Ops) (q slow fast a p : BitVec 32) (m0 : BitVec 32 → BitVec 8) (ib : BitVec 32)
    (h0 : 0 ≤ slow.toInt) (h1 : slow.toInt ≤ fast.toInt) (h2 : fast.toInt + slow.toInt ≤ 2 ^ 31) (hp : p.toInt < fast.toInt) (k : Nat)
    {t : WF o × Int × List (WF o)}
    (ht : t = after (C := WF o) fast.toInt slow.toInt (· - fast.toInt) (· * ⟨q⟩) ⟨a⟩ p.toInt (contents (values o m0 ib) ⟨0, k⟩)) :
    runQ o q slow fast a p m0 ib k = (t.1.w, BitVec.ofInt 32 t.2.1, t.2.2.map WF.w) ∧ -2 ^ 31 ≤ t.2.1 ∧ t.2.1 < fast.toInt := by
  induction k generalizing t with
  | zero =>
    subst ht
    have h2 := BitVec.le_toInt p
    refine ⟨?_, ?_, hp⟩
    · show (a, p, []) = (_, BitVec.ofInt 32 p.toInt, _)
      rw [BitVec.ofInt_toInt]
      rfl
    · show -2 ^ 31 ≤ p.toInt
      omega
  | succ k ih =>
    obtain ⟨u, hu⟩ : ∃ u, u = after (C := WF o) fast.toInt slow.toInt (· - fast.toInt) (· * ⟨q⟩) ⟨a⟩ p.toInt (contents (values o m0 ib) ⟨0, k⟩) := ⟨_, rfl⟩
    obtain ⟨i1, i2, i3⟩ := ih hu
    have ht' : t = push (C := WF o) fast.toInt slow.toInt (· - fast.toInt) (· * ⟨q⟩) u (values o m0 ib k) := by
      rw [ht, contents_succ, hu]
      unfold after
      rw [List.foldl_append]
      rfl
    rw [runQ, i1, ht', push]
    unfold stepQ
    have hF := BitVec.toInt_lt (x := fast)
    have e1 : BitVec.ofInt 32 u.2.1 + slow = BitVec.ofInt 32 (u.2.1 + slow.toInt) := by rw [BitVec.ofInt_add, BitVec.ofInt_toInt]
    have e2 : BitVec.ofInt 32 (u.2.1 + slow.toInt) - fast = BitVec.ofInt 32 (u.2.1 + slow.toInt - fast.toInt) := by
      apply BitVec.eq_of_toInt_eq
      rw [BitVec.toInt_sub, Arm.word_toInt32 _ (by omega) (by omega), BitVec.toInt_ofInt]
    have ec : (BitVec.ofInt 32 (u.2.1 + slow.toInt)).slt fast = decide (u.2.1 + slow.toInt < fast.toInt) := by
      rw [BitVec.slt, Arm.word_toInt32 _ (by omega) (by omega)]
    simp only [e1, e2, ec]
    by_cases c : u.2.1 + slow.toInt < fast.toInt
    · rw [if_pos (by simpa using c), if_pos c]
      refine ⟨rfl, ?_, ?_⟩
      · simp only; omega
      · simp only; omega
    · rw [if_neg (by simpa using c), if_neg c]
      refine ⟨by rw [List.map_append]; rfl, ?_, ?_⟩
      · simp only; omega
      · simp only; omega

/-! ### The complex filter -/

/-- **C135, complex filter.** From any state, whatever the floating-point unit computes: the routine returns, and the filter, the slice and the returned
length are those of the portable code (C49) with the same additions; nothing else has changed. The counter must not be 2³¹ − 1, which the
filter itself never reaches. -/
theorem C135_complex {e : Env} {s : St} {fi ib : BitVec 32} {n : Nat} (ha : Call s fi ib n) (h : Places e fi ib (8 * n))
    (hp : (lpdAt e.o s.mem fi).prevIndex ≠ 2 ^ 31 - 1) :
    ∃ s' k, Returns (sem e) prog 3 s s' ∧ FilteredC e.o fi ib n k s s' ∧ (lpdAt e.o s'.mem fi).prevIndex ≠ 2 ^ 31 - 1 := by
  obtain ⟨t, ht⟩ : ∃ t, t = runC e.o (u32at s.mem fi) (pairAt s.mem (fi + BitVec.ofNat 32 4)) (u32at s.mem (fi + BitVec.ofNat 32 12)) s.mem ib n := ⟨_, rfl⟩
  obtain ⟨u, hu⟩ : ∃ u, u = after (C := WC e.o) (lpdAt e.o s.mem fi).downsample 1 (fun _ => 0) id (lpdAt e.o s.mem fi).now (lpdAt e.o s.mem fi).prevIndex
      (contents (pairs e.o s.mem ib) ⟨0, n⟩) := ⟨_, rfl⟩
  obtain ⟨w1, w2, w3⟩ := runC_after e.o _ _ _ s.mem ib hp n hu
  have ht2 := ht
  unfold pairAt at ht2
  rw [adv] at ht2
  obtain ⟨s', h1, h2, h3⟩ := routineC (e := e) ha.hn ha.a0 ha.a1 ha.a2 h.filt h.slice ht2
  have hl : t.2.2.length ≤ n := ht ▸ runC_len ..
  have hs := h.slice.small
  replace w1 := ht.trans w1
  have f0 : u32at s'.mem fi = u32at s.mem fi := by
    have := fun (m : BitVec 32 → BitVec 8) w k (hk : k ≤ 12) (h4 : 4 ≤ k) => put_word (m := m) (fi := fi) (w := w) (j := 0) (k := k) (by omega) hk (by omega)
    have g := fill_word (m := s.mem) (u := 8 * t.2.2.length) (g := bytesC t.2.2) h (by omega) (j := 0) (by omega)
    simp only [adv0] at this g
    rw [h3, this _ _ 8 (by omega) (by omega), this _ _ 4 (by omega) (by omega), this _ _ 12 (by omega) (by omega), g]
  have f12 : u32at s'.mem (fi + BitVec.ofNat 32 12) = t.2.1 := by
    rw [h3, put_word (by omega) (by omega) (by omega), put_word (by omega) (by omega) (by omega), put_at]
  have f4 : pairAt s'.mem (fi + BitVec.ofNat 32 4) = t.1 := by
    refine Prod.ext ?_ ?_
    · show u32at s'.mem _ = _
      rw [h3, put_word (by omega) (by omega) (by omega), put_at]
    · show u32at s'.mem _ = _
      rw [adv, h3, put_at]
  have hfar : ∀ a, 16 ≤ (a - fi).toNat → s'.mem a = fill s.mem ib (8 * t.2.2.length) (bytesC t.2.2) a := by
    intro a ha'
    rw [h3, put_far (by omega) ha', put_far (by omega) ha', put_far (by omega) ha']
  have hi12 : (u32at s'.mem (fi + BitVec.ofNat 32 12)).toInt = u.2.1 := by
    rw [f12, w1]
    exact Arm.word_toInt32 _ (by omega) (by omega)
  refine ⟨s', t.2.2.length, h1, ⟨frame_of h2 fun a b c => ?_, ?_⟩, ?_⟩
  · rw [hfar a c, fill_out (by omega)]
  · refine ⟨overwrite (pairs e.o s.mem ib) 0 u.2.2, ?_, ?_⟩
    · rw [LPD.filter_eq, ← hu]
      refine congrArg some (Prod.ext rfl (Prod.ext ?_ ?_))
      · show ({ lpdAt e.o s.mem fi with now := u.1, prevIndex := u.2.1 } : LPD (WC e.o)) = ⟨(u32at s'.mem fi).toInt, ⟨pairAt s'.mem (fi + BitVec.ofNat 32 4)⟩, _⟩
        rw [f0, f4, hi12, w1]
        rfl
      · show (⟨0, u.2.2.length⟩ : Slice) = ⟨0, t.2.2.length⟩
        rw [w1, List.length_map]
    · intro j hj
      by_cases c : j < t.2.2.length
      · have e1 : pairs e.o s'.mem ib j = ⟨t.2.2[j]⟩ := by
          rw [← bytesC_at (m := s.mem) (ib := ib) c (by omega)]
          refine congrArg WC.mk (pairAt_congr fun i hi => ?_)
          rw [adv]
          exact hfar _ (clear h (by omega))
        rw [e1]
        have c2 : j < u.2.2.length := by rw [w1, List.length_map] at c; exact c
        simp only [overwrite, Nat.zero_le, if_true, Nat.sub_zero]
        rw [List.getElem?_eq_getElem c2]
        subst w1
        simp
      · have c2 : u.2.2.length ≤ j := by rw [w1, List.length_map] at c; exact not_lt.1 c
        have := Verif.Down.overwrite_beyond (pairs e.o s.mem ib) 0 j u.2.2 c2
        rw [Nat.zero_add] at this
        rw [this]
        refine congrArg WC.mk (pairAt_congr fun i hi => ?_)
        rw [adv, hfar _ (clear h (by omega)), fill_out]
        rw [off_add _ _ (by omega)]
        omega
  · show (u32at s'.mem (fi + BitVec.ofNat 32 12)).toInt ≠ _
    rw [hi12]
    omega

/-! ### The rational filter -/

/-- All of the slice lies on one side of address 2³¹. -/
def OneSide (ib : BitVec 32) (n : Nat) : Prop := ib.toNat + 4 * n < 2 ^ 31 ∨ 2 ^ 31 ≤ ib.toNat ∧ ib.toNat + 4 * n < 2 ^ 32

/-- Rates and phase that the 32-bit counter can hold. -/
structure Rates {o : Ops} (f : LPR (WF o)) : Prop where
  slow : 0 ≤ f.slow
  le : f.slow ≤ f.fast
  sum : f.fast + f.slow ≤ 2 ^ 31
  phase : f.prevIndex < f.fast

/-- **C135, rational filter** (partial: slices on one side of address 2³¹ only, and vector length one). From any state, whatever the floating-point unit computes: the
routine returns, and the filter, the slice and the returned length are those of the portable code (C50) with the same operations; nothing else has changed. -/
theorem C135_rational_partial {e : Env} {s : St} {fi ib : BitVec 32} {n : Nat} (ha : Call s fi ib n) (h : Places e fi ib (4 * n))
    (hb : OneSide ib n) (hL : s.fpscr.extractLsb' 16 3 = 0) (hr : Rates (lprAt e.o s.mem fi)) :
    ∃ s' k, Returns (sem e) prog 66 s s' ∧ FilteredQ e.o fi ib n k s s' ∧ Rates (lprAt e.o s'.mem fi) := by
  obtain ⟨slow, hsl⟩ : ∃ w, w = u32at s.mem (fi + BitVec.ofNat 32 4) := ⟨_, rfl⟩
  obtain ⟨fast, hfa⟩ : ∃ w, w = u32at s.mem fi := ⟨_, rfl⟩
  have e0 : lprAt e.o s.mem fi = ⟨fast.toInt, slow.toInt, ⟨u32at s.mem (fi + BitVec.ofNat 32 8)⟩, (u32at s.mem (fi + BitVec.ofNat 32 12)).toInt⟩ := by
    rw [hsl, hfa]
    rfl
  obtain ⟨hr0, hr1, hr2, hr3⟩ := hr
  simp only [e0] at hr0 hr1 hr2 hr3
  have hps : passed ib.toNat n = n := by
    unfold passed
    unfold OneSide at hb
    rw [if_neg (by omega)]
  have hq : ib.toNat + 4 * n < 2 ^ 32 := by unfold OneSide at hb; omega
  obtain ⟨q, hqq⟩ : ∃ q, q = e.o.div (e.o.cvt slow.toInt) (e.o.cvt fast.toInt) := ⟨_, rfl⟩
  obtain ⟨t, ht⟩ : ∃ t, t = runQ e.o q slow fast (u32at s.mem (fi + BitVec.ofNat 32 8)) (u32at s.mem (fi + BitVec.ofNat 32 12)) s.mem ib n := ⟨_, rfl⟩
  obtain ⟨u, hu⟩ : ∃ u, u = after (C := WF e.o) fast.toInt slow.toInt (· - fast.toInt) (· * ⟨q⟩) ⟨u32at s.mem (fi + BitVec.ofNat 32 8)⟩
      (u32at s.mem (fi + BitVec.ofNat 32 12)).toInt (contents (values e.o s.mem ib) ⟨0, n⟩) := ⟨_, rfl⟩
  obtain ⟨w1, w2, w3⟩ := runQ_after e.o q slow fast _ _ s.mem ib hr0 hr1 hr2 hr3 n hu
  have hF := BitVec.toInt_lt (x := fast)
  obtain ⟨s', h1, h2, h3⟩ := routineQ (e := e) ha.a0 ha.a1 ha.a2 h.filt h.slice hq hL hsl hfa (t := t) (by rw [hps, ← hqq]; exact ht)
  have hl : t.2.2.length ≤ n := ht ▸ runQ_len ..
  have hs := h.slice.small
  replace w1 := ht.trans w1
  have f0 : u32at s'.mem fi = fast := by
    have := fun (m : BitVec 32 → BitVec 8) w k (hk : k ≤ 12) (h4 : 4 ≤ k) => put_word (m := m) (fi := fi) (w := w) (j := 0) (k := k) (by omega) hk (by omega)
    have g := fill_word (m := s.mem) (u := 4 * t.2.2.length) (g := bytesF t.2.2) h (by omega) (j := 0) (by omega)
    simp only [adv0] at this g
    rw [h3, this _ _ 8 (by omega) (by omega), this _ _ 12 (by omega) (by omega), g, hfa]
  have f4 : u32at s'.mem (fi + BitVec.ofNat 32 4) = slow := by
    rw [h3, put_word (by omega) (by omega) (by omega), put_word (by omega) (by omega) (by omega), fill_word h (by omega) (by omega), hsl]
  have f12 : u32at s'.mem (fi + BitVec.ofNat 32 12) = t.2.1 := by
    rw [h3, put_word (by omega) (by omega) (by omega), put_at]
  have f8 : u32at s'.mem (fi + BitVec.ofNat 32 8) = t.1 := by
    rw [h3, put_at]
  have hfar : ∀ a, 16 ≤ (a - fi).toNat → s'.mem a = fill s.mem ib (4 * t.2.2.length) (bytesF t.2.2) a := by
    intro a ha'
    rw [h3, put_far (by omega) ha', put_far (by omega) ha']
  have hi12 : (u32at s'.mem (fi + BitVec.ofNat 32 12)).toInt = u.2.1 := by
    rw [f12, w1]
    exact Arm.word_toInt32 _ (by omega) (by omega)
  have e1 : lprAt e.o s'.mem fi = ⟨fast.toInt, slow.toInt, u.1, u.2.1⟩ := by
    unfold lprAt
    rw [f0, f4, f8, hi12, w1]
  refine ⟨s', t.2.2.length, h1, ⟨frame_of h2 fun a b c => ?_, ?_⟩, ?_⟩
  · rw [hfar a c, fill_out (by omega)]
  · refine ⟨overwrite (values e.o s.mem ib) 0 u.2.2, ?_, ?_⟩
    · have hu2 : u = after (C := WF e.o) fast.toInt slow.toInt (· - fast.toInt) (· * (conv e.o slow.toInt / conv e.o fast.toInt))
          ⟨u32at s.mem (fi + BitVec.ofNat 32 8)⟩ (u32at s.mem (fi + BitVec.ofNat 32 12)).toInt (contents (values e.o s.mem ib) ⟨0, n⟩) := by
        rw [hu, hqq]
        rfl
      rw [LPR.filter_eq, e0, e1]
      simp only
      rw [← hu2, w1, List.length_map]
    · intro j hj
      by_cases c : j < t.2.2.length
      · have e1 : values e.o s'.mem ib j = ⟨t.2.2[j]⟩ := by
          rw [← bytesF_at (m := s.mem) (ib := ib) c (by omega)]
          refine congrArg WF.mk (Demod.u32at_congr fun i hi => ?_)
          rw [adv]
          exact hfar _ (clear h (by omega))
        rw [e1]
        have c2 : j < u.2.2.length := by rw [w1, List.length_map] at c; exact c
        simp only [overwrite, Nat.zero_le, if_true, Nat.sub_zero]
        rw [List.getElem?_eq_getElem c2]
        subst w1
        simp
      · have c2 : u.2.2.length ≤ j := by rw [w1, List.length_map] at c; exact not_lt.1 c
        have := Verif.Down.overwrite_beyond (values e.o s.mem ib) 0 j u.2.2 c2
        rw [Nat.zero_add] at this
        rw [this]
        refine congrArg WF.mk (Demod.u32at_congr fun i hi => ?_)
        rw [adv, hfar _ (clear h (by omega)), fill_out]
        rw [off_add _ _ (by omega)]
        omega
  · rw [e1]
    exact ⟨hr0, hr1, hr2, w3⟩

theorem u32at_byte (m : BitVec 32 → BitVec 8) (a : BitVec 32) {k : Nat} (hk : k < 4) : byte (u32at m a) k = m (a + BitVec.ofNat 32 k) := by
  unfold u32at
  apply BitVec.eq_of_getLsbD_eq
  intro i hi
  obtain rfl | rfl | rfl | rfl : k = 0 ∨ k = 1 ∨ k = 2 ∨ k = 3 := by omega
  · rw [adv0]
    simp only [X86.getLsb_byte, BitVec.getLsbD_append]
    simp [hi]
  · simp only [X86.getLsb_byte, BitVec.getLsbD_append]
    simp [hi, show ¬8 + i < 8 by omega]
  · simp only [X86.getLsb_byte, BitVec.getLsbD_append]
    simp [hi, show ¬16 + i < 8 by omega, show ¬16 + i - 8 < 8 by omega, show 16 + i - 8 - 8 = i by omega]
  · simp only [X86.getLsb_byte, BitVec.getLsbD_append]
    simp [hi, show ¬24 + i < 8 by omega, show ¬24 + i - 8 < 8 by omega, show ¬24 + i - 8 - 8 < 8 by omega, show 24 + i - 8 - 8 - 8 = i by omega]

theorem put_same (m : BitVec 32 → BitVec 8) (a : BitVec 32) : put m a (u32at m a) = m := by
  funext b
  by_cases c : (b - a).toNat < 4
  · rw [Demod.near b a]
    unfold put
    rw [fill_in c (by decide)]
    unfold bytes32
    rw [if_pos c]
    obtain ⟨k, hk⟩ : ∃ k, k = (b - a).toNat := ⟨_, rfl⟩
    rw [← hk] at c ⊢
    exact u32at_byte m a c
  · exact put_out (by omega)

theorem len_leQ {o : Ops} {cv : Int → WF o} {f f' : LPR (WF o)} {m m' : Nat → WF o} {n k : Nat} (h : f.filter cv m ⟨0, n⟩ = some (m', f', ⟨0, k⟩)) : k ≤ n := by
  rw [LPR.filter_eq] at h
  simp only [Option.some.injEq, Prod.mk.injEq, Slice.mk.injEq, true_and] at h
  rw [← h.2.2]
  refine (Verif.Down.push_len _ _ _ _ _ _).trans ?_
  rw [Verif.Down.contents_length]
  simp

/-- As long as nothing is given out the phase has grown by `slow` for each sample. -/
theorem quiet {o : Ops} {fast slow p : Int} {em : WF o → WF o} (hs : slow ≤ fast) (hp : p < fast) (a : WF o) (xs : List (WF o)) :
    (after fast slow (· - fast) em a p xs).2.1 < fast ∧
      ((after fast slow (· - fast) em a p xs).2.2 = [] → (after fast slow (· - fast) em a p xs).2.1 = p + slow * xs.length) := by
  induction xs using List.reverseRecOn with
  | nil => exact ⟨hp, fun _ => by simp [after]⟩
  | append_singleton xs x ih =>
    have e1 : after fast slow (· - fast) em a p (xs ++ [x]) = push fast slow (· - fast) em (after fast slow (· - fast) em a p xs) x := by
      unfold after
      rw [List.foldl_append]
      rfl
    rw [e1]
    generalize after fast slow (· - fast) em a p xs = t at *
    unfold push
    split
    · refine ⟨by simpa using ‹_›, fun h => ?_⟩
      have := ih.2 h
      simp only [this, List.length_append, List.length_singleton]
      push_cast
      ring
    · refine ⟨by simp only; omega, fun h => ?_⟩
      simp at h

/-- **C135 is violated when the slice goes across address 2³¹**, for all samples, rates and states: the routine returns with an empty slice, and no byte of the
memory, so neither the filter nor the samples, has changed. The portable code does something else as soon as there are enough samples for one output. -/
theorem C135_violated_rational {e : Env} {s : St} {fi ib : BitVec 32} {n : Nat} (ha : Call s fi ib n) (h : Places e fi ib (4 * n))
    (h1 : ib.toNat < 2 ^ 31) (h2 : 2 ^ 31 ≤ ib.toNat + 4 * n) (h3 : ib.toNat + 4 * n < 2 ^ 32) (hL : s.fpscr.extractLsb' 16 3 = 0) :
    ∃ s', Returns (sem e) prog 66 s s' ∧ s'.mem = s.mem ∧ s'.fp 16 = s.fp 4 ∧ s'.fp 20 = 0 ∧
      (Rates (lprAt e.o s.mem fi) → (lprAt e.o s.mem fi).fast ≤ (lprAt e.o s.mem fi).prevIndex + (lprAt e.o s.mem fi).slow * n →
        ¬ ∃ k, FilteredQ e.o fi ib n k s s') := by
  have hps : passed ib.toNat n = 0 := by
    unfold passed
    rw [if_pos ⟨h1, h2⟩]
  obtain ⟨s', r1, r2, r3⟩ := routineQ (e := e) ha.a0 ha.a1 ha.a2 h.filt h.slice h3 hL rfl rfl (by rw [hps])
  have h20 : s'.fp 20 = 0 := by rw [r2]; rfl
  refine ⟨s', r1, ?_, by rw [r2]; rfl, h20, ?_⟩
  · rw [r3]
    show put (put (fill s.mem ib (4 * 0) _) (fi + BitVec.ofNat 32 12) (u32at s.mem (fi + BitVec.ofNat 32 12))) (fi + BitVec.ofNat 32 8)
      (u32at s.mem (fi + BitVec.ofNat 32 8)) = _
    rw [Nat.mul_zero, fill_zero, put_same, put_same]
  · rintro hr hn ⟨k, hk⟩
    obtain ⟨m', q1, -⟩ := hk.run
    have hl := len_leQ q1
    have hk0 : k = 0 := by
      have := hk.len
      rw [h20] at this
      have := congrArg BitVec.toNat this
      have hn2 := ha.hn
      rw [toNat32 (by omega)] at this
      exact this.symm
    rw [LPR.filter_eq] at q1
    simp only [Option.some.injEq, Prod.mk.injEq, Slice.mk.injEq, true_and] at q1
    have q3 := q1.2.2
    rw [hk0, List.length_eq_zero_iff] at q3
    obtain ⟨g1, g2⟩ := quiet (em := (· * (conv e.o (lprAt e.o s.mem fi).slow / conv e.o (lprAt e.o s.mem fi).fast))) hr.le hr.phase (lprAt e.o s.mem fi).sum
      (contents (values e.o s.mem ib) ⟨0, n⟩)
    have g3 := g2 q3
    rw [Verif.Down.contents_length] at g3
    simp only at g3
    omega

/-! ### Chains of calls -/

/-- A call: the states before and after it, the address of the slice and its length. -/
structure Run where
  s : St
  s' : St
  ib : BitVec 32
  n : Nat

/-- The call with its slice of `v`-byte elements has been made, by the routine at line `pc`. -/
structure Ran (e : Env) (pc v : Nat) (fi : BitVec 32) (c : Run) : Prop where
  call : Call c.s fi c.ib c.n
  places : Places e fi c.ib (v * c.n)
  ret : Returns (sem e) prog pc c.s c.s'

/-- Between one call and the next nothing is stored into the filter. -/
def Linked (fi : BitVec 32) : List Run → Prop
  | c :: d :: cs => (∀ i < 16, d.s.mem (fi + BitVec.ofNat 32 i) = c.s'.mem (fi + BitVec.ofNat 32 i)) ∧ Linked fi (d :: cs)
  | _ => True

theorem word_same {m m' : BitVec 32 → BitVec 8} {fi : BitVec 32} (h : ∀ i < 16, m (fi + BitVec.ofNat 32 i) = m' (fi + BitVec.ofNat 32 i)) {j : Nat} (hj : j ≤ 12) :
    u32at m (fi + BitVec.ofNat 32 j) = u32at m' (fi + BitVec.ofNat 32 j) := by
  refine Demod.u32at_congr fun i hi => ?_
  rw [adv]
  exact h _ (by omega)

theorem lpdAt_same {o : Ops} {m m' : BitVec 32 → BitVec 8} {fi : BitVec 32} (h : ∀ i < 16, m (fi + BitVec.ofNat 32 i) = m' (fi + BitVec.ofNat 32 i)) :
    lpdAt o m fi = lpdAt o m' fi := by
  have h0 := word_same h (j := 0) (by omega)
  rw [adv0] at h0
  unfold lpdAt pairAt
  rw [adv, h0, word_same h (j := 4) (by omega), word_same h (j := 8) (by omega), word_same h (j := 12) (by omega)]

theorem lprAt_same {o : Ops} {m m' : BitVec 32 → BitVec 8} {fi : BitVec 32} (h : ∀ i < 16, m (fi + BitVec.ofNat 32 i) = m' (fi + BitVec.ofNat 32 i)) :
    lprAt o m fi = lprAt o m' fi := by
  have h0 := word_same h (j := 0) (by omega)
  rw [adv0] at h0
  unfold lprAt
  rw [h0, word_same h (j := 4) (by omega), word_same h (j := 8) (by omega), word_same h (j := 12) (by omega)]

/-- What a call is given, and what is found in the slice it returns. -/
def inC (o : Ops) (c : Run) : (Nat → WC o) × Slice := (pairs o c.s.mem c.ib, ⟨0, c.n⟩)
def outC (o : Ops) (c : Run) : List (WC o) := contents (pairs o c.s'.mem c.ib) ⟨0, (c.s'.fp 20).toNat⟩
def inQ (o : Ops) (c : Run) : (Nat → WF o) × Slice := (values o c.s.mem c.ib, ⟨0, c.n⟩)
def outQ (o : Ops) (c : Run) : List (WF o) := contents (values o c.s'.mem c.ib) ⟨0, (c.s'.fp 20).toNat⟩

theorem contents_same {C : Type} {m m' : Nat → C} {k : Nat} (h : ∀ j < k, m j = m' j) : contents m ⟨0, k⟩ = contents m' ⟨0, k⟩ := by
  unfold contents
  refine List.map_congr_left fun i hi => ?_
  rw [Nat.zero_add]
  exact h i (List.mem_range.1 hi)

theorem len_le {o : Ops} {f f' : LPD (WC o)} {m m' : Nat → WC o} {n k : Nat} (h : f.filter m ⟨0, n⟩ = some (m', f', ⟨0, k⟩)) : k ≤ n := by
  rw [LPD.filter_eq] at h
  simp only [Option.some.injEq, Prod.mk.injEq, Slice.mk.injEq, true_and] at h
  rw [← h.2.2]
  refine (Verif.Down.push_len _ _ _ _ _ _).trans ?_
  rw [Verif.Down.contents_length]
  simp

theorem ranC {e : Env} {fi : BitVec 32} {c : Run} (h : Ran e 3 8 fi c) (hp : (lpdAt e.o c.s.mem fi).prevIndex ≠ 2 ^ 31 - 1) :
    (∃ m', (lpdAt e.o c.s.mem fi).filter (inC e.o c).1 (inC e.o c).2 = some (m', lpdAt e.o c.s'.mem fi, ⟨0, (c.s'.fp 20).toNat⟩) ∧
      contents m' ⟨0, (c.s'.fp 20).toNat⟩ = outC e.o c) ∧ (lpdAt e.o c.s'.mem fi).prevIndex ≠ 2 ^ 31 - 1 := by
  obtain ⟨s', k, h1, h2, h3⟩ := C135_complex h.call h.places hp
  obtain rfl := h1.unique h.ret
  obtain ⟨m', r1, r2⟩ := h2.run
  have hk := len_le r1
  have hn := h.call.hn
  have e1 : (c.s'.fp 20).toNat = k := by rw [h2.len, toNat32 (by omega)]
  refine ⟨⟨m', by rw [e1]; exact r1, ?_⟩, h3⟩
  unfold outC
  rw [e1]
  exact contents_same fun j hj => r2 j (by omega)

theorem ranQ {e : Env} {fi : BitVec 32} {c : Run} (h : Ran e 66 4 fi c) (hb : OneSide c.ib c.n) (hL : c.s.fpscr.extractLsb' 16 3 = 0)
    (hp : Rates (lprAt e.o c.s.mem fi)) :
    (∃ m', (lprAt e.o c.s.mem fi).filter (conv e.o) (inQ e.o c).1 (inQ e.o c).2 = some (m', lprAt e.o c.s'.mem fi, ⟨0, (c.s'.fp 20).toNat⟩) ∧
      contents m' ⟨0, (c.s'.fp 20).toNat⟩ = outQ e.o c) ∧ Rates (lprAt e.o c.s'.mem fi) := by
  obtain ⟨s', k, h1, h2, h3⟩ := C135_rational_partial h.call h.places hb hL hp
  obtain rfl := h1.unique h.ret
  obtain ⟨m', r1, r2⟩ := h2.run
  have hk := len_leQ r1
  have hn := h.call.hn
  have e1 : (c.s'.fp 20).toNat = k := by rw [h2.len, toNat32 (by omega)]
  refine ⟨⟨m', by rw [e1]; exact r1, ?_⟩, h3⟩
  unfold outQ
  rw [e1]
  exact contents_same fun j hj => r2 j (by omega)

/-- **C135, complex filter over many calls.** Whatever the calls do elsewhere, as long as nothing else is stored into the filter, the filter at the end and all that
was found in the returned slices are those of the portable code given the same slices one after the other. -/
theorem C135_complex_calls {e : Env} {fi : BitVec 32} (c : Run) (cs : List Run) (h : ∀ d ∈ c :: cs, Ran e 3 8 fi d) (hl : Linked fi (c :: cs))
    (hp : (lpdAt e.o c.s.mem fi).prevIndex ≠ 2 ^ 31 - 1) :
    (lpdAt e.o c.s.mem fi).calls ((c :: cs).map (inC e.o)) =
      some (lpdAt e.o ((c :: cs).getLast (List.cons_ne_nil _ _)).s'.mem fi, ((c :: cs).map (outC e.o)).flatten) := by
  induction cs generalizing c with
  | nil =>
    obtain ⟨⟨m', r1, r2⟩, -⟩ := ranC (h c (by simp)) hp
    simp only [List.map_cons, List.map_nil, List.getLast_singleton, List.flatten_cons, List.flatten_nil, List.append_nil]
    rw [← r2]
    unfold LPD.calls
    simp only [r1, Option.bind_eq_bind, Option.bind_some, LPD.calls, List.append_nil]
  | cons d cs ih =>
    obtain ⟨⟨m', r1, r2⟩, r3⟩ := ranC (h c (by simp)) hp
    have hs : lpdAt e.o d.s.mem fi = lpdAt e.o c.s'.mem fi := lpdAt_same hl.1
    have := ih d (fun x hx => h x (List.mem_cons_of_mem _ hx)) hl.2 (by rw [hs]; exact r3)
    rw [hs] at this
    rw [List.getLast_cons (List.cons_ne_nil _ _), List.map_cons, List.map_cons (f := outC e.o), List.flatten_cons, ← r2]
    unfold LPD.calls
    simp only [r1, Option.bind_eq_bind, Option.bind_some, this]

/-- **C135, rational filter over many calls** (partial like `C135_rational_partial`). -/
theorem C135_rational_calls_partial {e : Env} {fi : BitVec 32} (c : Run) (cs : List Run)
    (h : ∀ d ∈ c :: cs, Ran e 66 4 fi d ∧ OneSide d.ib d.n ∧ d.s.fpscr.extractLsb' 16 3 = 0) (hl : Linked fi (c :: cs)) (hp : Rates (lprAt e.o c.s.mem fi)) :
    (lprAt e.o c.s.mem fi).calls (conv e.o) ((c :: cs).map (inQ e.o)) =
      some (lprAt e.o ((c :: cs).getLast (List.cons_ne_nil _ _)).s'.mem fi, ((c :: cs).map (outQ e.o)).flatten) := by
  induction cs generalizing c with
  | nil =>
    obtain ⟨h1, h2, h3⟩ := h c (by simp)
    obtain ⟨⟨m', r1, r2⟩, -⟩ := ranQ h1 h2 h3 hp
    simp only [List.map_cons, List.map_nil, List.getLast_singleton, List.flatten_cons, List.flatten_nil, List.append_nil]
    rw [← r2]
    unfold LPR.calls
    simp only [r1, Option.bind_eq_bind, Option.bind_some, LPR.calls, List.append_nil]
  | cons d cs ih =>
    obtain ⟨h1, h2, h3⟩ := h c (by simp)
    obtain ⟨⟨m', r1, r2⟩, r3⟩ := ranQ h1 h2 h3 hp
    have hs : lprAt e.o d.s.mem fi = lprAt e.o c.s'.mem fi := lprAt_same hl.1
    have := ih d (fun x hx => h x (List.mem_cons_of_mem _ hx)) hl.2 (by rw [hs]; exact r3)
    rw [hs] at this
    rw [List.getLast_cons (List.cons_ne_nil _ _), List.map_cons, List.map_cons (f := outQ e.o), List.flatten_cons, ← r2]
    unfold LPR.calls
    simp only [r1, Option.bind_eq_bind, Option.bind_some, this]

/-! ### With IEEE-754 arithmetic -/

theorem push_map {C C' : Type} [Add C] [Zero C] [Add C'] [Zero C'] (f : C → C') (ha : ∀ a b, f (a + b) = f a + f b) (h0 : f 0 = 0)
    {em : C → C} {em' : C' → C'} (he : ∀ x, f (em x) = em' (f x)) (fast slow : Int) (next : Int → Int) (xs : List C) (a : C) (p : Int) (o : List C) :
    (xs.map f).foldl (push fast slow next em') (f a, p, o.map f) =
      (f (xs.foldl (push fast slow next em) (a, p, o)).1, (xs.foldl (push fast slow next em) (a, p, o)).2.1,
        (xs.foldl (push fast slow next em) (a, p, o)).2.2.map f) := by
  induction xs generalizing a p o with
  | nil => rfl
  | cons x xs ih =>
    simp only [List.map_cons, List.foldl_cons]
    by_cases c : p + slow < fast
    · rw [show push fast slow next em (a, p, o) x = (a + x, p + slow, o) by simp [push, c],
        show push fast slow next em' (f a, p, o.map f) (f x) = (f (a + x), p + slow, o.map f) by simp [push, c, ha], ih]
    · rw [show push fast slow next em (a, p, o) x = (0, next (p + slow), o ++ [em (a + x)]) by simp [push, c],
        show push fast slow next em' (f a, p, o.map f) (f x) = (f 0, next (p + slow), (o ++ [em (a + x)]).map f) by simp [push, c, ha, h0, he], ih]

theorem stream_map {C C' : Type} (f : C → C') (cs : List ((Nat → C) × Slice)) :
    Verif.Down.stream (cs.map fun c => (fun i => f (c.1 i), c.2)) = (Verif.Down.stream cs).map f := by
  unfold Verif.Down.stream
  rw [List.map_flatten, List.map_map, List.map_map]
  congr 1
  refine List.map_congr_left fun c _ => ?_
  simp [contents]

/-- The value of a word, and of two. -/
def valC {o : Ops} (x : WC o) : CVal binary32 := ⟨ofBits32 x.w.1, ofBits32 x.w.2⟩
def valF {o : Ops} (x : WF o) : FVal binary32 := ofBits32 x.w

theorem valC_add {o : Ops} (ho : Ieee o) (a b : WC o) : valC (a + b) = valC a + valC b := by
  show CVal.mk (ofBits32 (o.add a.w.1 b.w.1)) (ofBits32 (o.add a.w.2 b.w.2)) = _
  rw [ho.add, Math.ofBits32_addA, Math.ofBits32_addA]
  rfl

theorem valC_zero {o : Ops} : valC (0 : WC o) = 0 := by
  show CVal.mk (ofBits32 0) (ofBits32 0) = _
  rw [Demod.val_zero32]
  rfl

theorem valF_add {o : Ops} (ho : Ieee o) (a b : WF o) : valF (a + b) = valF a + valF b := by
  show ofBits32 (o.add a.w b.w) = _
  rw [ho.add, Math.ofBits32_addA]
  rfl

theorem valF_mul {o : Ops} (ho : Ieee o) (a b : WF o) : valF (a * b) = valF a * valF b := by
  show ofBits32 (o.mul a.w b.w) = _
  rw [ho.mul, X86.ofBits32_mul]
  rfl

theorem valF_div {o : Ops} (ho : Ieee o) (a b : WF o) : valF (a / b) = valF a / valF b := by
  show ofBits32 (o.div a.w b.w) = _
  rw [ho.div, Math.ofBits32_divA]
  rfl

theorem valF_zero {o : Ops} : valF (0 : WF o) = 0 := Demod.val_zero32

/-- The complex numbers in memory. -/
def complexAt (m : BitVec 32 → BitVec 8) (ib : BitVec 32) (i : Nat) : CVal binary32 :=
  ⟨f32at m (ib + BitVec.ofNat 32 (8 * i)), f32at m (ib + BitVec.ofNat 32 (8 * i + 4))⟩

/-- The numbers in memory. -/
def realAt (m : BitVec 32 → BitVec 8) (ib : BitVec 32) (i : Nat) : FVal binary32 := f32at m (ib + BitVec.ofNat 32 (4 * i))

/-- What calls are given, one after the other, and what is found in the slices they return. -/
def givenC (cs : List Run) : List (CVal binary32) := (cs.map fun c => (List.range c.n).map (complexAt c.s.mem c.ib)).flatten
def foundC (cs : List Run) : List (CVal binary32) := (cs.map fun c => (List.range (c.s'.fp 20).toNat).map (complexAt c.s'.mem c.ib)).flatten
def givenQ (cs : List Run) : List (FVal binary32) := (cs.map fun c => (List.range c.n).map (realAt c.s.mem c.ib)).flatten
def foundQ (cs : List Run) : List (FVal binary32) := (cs.map fun c => (List.range (c.s'.fp 20).toNat).map (realAt c.s'.mem c.ib)).flatten

theorem valC_pairs {o : Ops} (m : BitVec 32 → BitVec 8) (ib : BitVec 32) (i : Nat) : valC (pairs o m ib i) = complexAt m ib i := by
  unfold valC pairs complexAt pairAt f32at
  rw [adv]

/-- The slices as the specification of C109 takes them. -/
def slicesC (cs : List Run) : List ((Nat → CVal binary32) × Slice) := cs.map fun c => (complexAt c.s.mem c.ib, ⟨0, c.n⟩)
def slicesQ (cs : List Run) : List ((Nat → FVal binary32) × Slice) := cs.map fun c => (realAt c.s.mem c.ib, ⟨0, c.n⟩)

theorem stream_slicesC (cs : List Run) : Verif.Down.stream (slicesC cs) = givenC cs := by
  unfold Verif.Down.stream slicesC givenC
  rw [List.map_map]
  congr 1
  refine List.map_congr_left fun c _ => ?_
  simp only [Function.comp, contents, Nat.zero_add]

theorem stream_slicesQ (cs : List Run) : Verif.Down.stream (slicesQ cs) = givenQ cs := by
  unfold Verif.Down.stream slicesQ givenQ
  rw [List.map_map]
  congr 1
  refine List.map_congr_left fun c _ => ?_
  simp only [Function.comp, contents, Nat.zero_add]

theorem slicesC_map (o : Ops) (cs : List Run) : slicesC cs = (cs.map (inC o)).map fun c => (fun i => valC (c.1 i), c.2) := by
  unfold slicesC
  rw [List.map_map]
  refine List.map_congr_left fun c _ => ?_
  simp only [Function.comp, inC, valC_pairs]

theorem slicesQ_map (o : Ops) (cs : List Run) : slicesQ cs = (cs.map (inQ o)).map fun c => (fun i => valF (c.1 i), c.2) := by
  unfold slicesQ
  rw [List.map_map]
  rfl

theorem foundC_map (o : Ops) (cs : List Run) : foundC cs = ((cs.map (outC o)).flatten).map valC := by
  unfold foundC
  rw [List.map_flatten, List.map_map]
  congr 1
  refine List.map_congr_left fun c _ => ?_
  simp only [Function.comp, outC, contents, List.map_map, Nat.zero_add]
  exact List.map_congr_left fun i _ => (valC_pairs ..).symm

theorem foundQ_map (o : Ops) (cs : List Run) : foundQ cs = ((cs.map (outQ o)).flatten).map valF := by
  unfold foundQ
  rw [List.map_flatten, List.map_map]
  congr 1
  refine List.map_congr_left fun c _ => ?_
  simp only [Function.comp, outQ, contents, List.map_map, Nat.zero_add]
  rfl

/-- A new complex filter with factor `D`: the sum and the counter are zero. -/
def NewC (m : BitVec 32 → BitVec 8) (fi : BitVec 32) (D : Nat) : Prop :=
  (u32at m fi).toInt = D ∧ u32at m (fi + BitVec.ofNat 32 4) = 0 ∧ u32at m (fi + BitVec.ofNat 32 8) = 0 ∧ u32at m (fi + BitVec.ofNat 32 12) = 0

/-- A new rational filter. -/
def NewQ (m : BitVec 32 → BitVec 8) (fi : BitVec 32) (fast slow : Nat) : Prop :=
  (u32at m fi).toInt = fast ∧ (u32at m (fi + BitVec.ofNat 32 4)).toInt = slow ∧ u32at m (fi + BitVec.ofNat 32 8) = 0 ∧
    u32at m (fi + BitVec.ofNat 32 12) = 0

theorem found_callsC {e : Env} (ho : Ieee e.o) {fi : BitVec 32} {D : Nat} (c : Run) (cs : List Run) (hn : NewC c.s.mem fi D)
    (h : ∀ d ∈ c :: cs, Ran e 3 8 fi d) (hl : Linked fi (c :: cs)) :
    ∃ f, (LPD.mk D 0 0).calls (slicesC (c :: cs)) = some (f, foundC (c :: cs)) := by
  obtain ⟨n1, n2, n3, n4⟩ := hn
  have e0 : lpdAt e.o c.s.mem fi = ⟨D, 0, 0⟩ := by
    unfold lpdAt pairAt
    rw [n1, adv, n2, n3, n4]
    rfl
  have := C135_complex_calls c cs h hl (by rw [e0]; show (0 : Int) ≠ _; decide)
  rw [e0, LPD.calls_eq] at this
  simp only [Option.some.injEq, Prod.mk.injEq] at this
  have hm := push_map (valC (o := e.o)) (valC_add ho) valC_zero (em := id) (em' := id) (fun _ => rfl) D 1 (fun _ => 0)
    (Verif.Down.stream ((c :: cs).map (inC e.o))) 0 0 []
  rw [LPD.calls_eq]
  refine ⟨_, congrArg some (Prod.ext rfl ?_)⟩
  show (after _ _ _ _ 0 0 (Verif.Down.stream (slicesC (c :: cs)))).2.2 = _
  have h2 := this.2
  rw [slicesC_map e.o, stream_map, foundC_map e.o, ← h2]
  rw [valC_zero] at hm
  exact congrArg (fun t => t.2.2) hm

theorem found_callsQ {e : Env} (ho : Ieee e.o) (hc : e.o.cvt = X86.Avo.ieeeCvt32) {fi : BitVec 32} {fast slow : Nat} (h1 : slow ≤ fast) (h2 : fast + slow ≤ 2 ^ 31)
    (h3 : 0 < fast) (c : Run) (cs : List Run) (hn : NewQ c.s.mem fi fast slow)
    (h : ∀ d ∈ c :: cs, Ran e 66 4 fi d ∧ OneSide d.ib d.n ∧ d.s.fpscr.extractLsb' 16 3 = 0) (hl : Linked fi (c :: cs)) :
    ∃ f, (LPR.mk fast slow 0 0).calls Verif.Down.conv32 (slicesQ (c :: cs)) = some (f, foundQ (c :: cs)) := by
  obtain ⟨n1, n2, n3, n4⟩ := hn
  have e0 : lprAt e.o c.s.mem fi = ⟨fast, slow, 0, 0⟩ := by
    unfold lprAt
    rw [n1, n2, n3, n4]
    rfl
  have := C135_rational_calls_partial c cs h hl (by rw [e0]; exact ⟨by simp, by simpa using h1, by simp only; omega, by simp only; omega⟩)
  rw [e0, LPR.calls_eq] at this
  simp only [Option.some.injEq, Prod.mk.injEq] at this
  have hcv : ∀ z, valF (conv e.o z) = Verif.Down.conv32 z := by
    intro z
    show ofBits32 (e.o.cvt z) = _
    rw [hc, X86.ofBits32_cvt]
    rfl
  have hm := push_map (valF (o := e.o)) (valF_add ho) valF_zero (em := (· * (conv e.o slow / conv e.o fast)))
    (em' := (· * (Verif.Down.conv32 slow / Verif.Down.conv32 fast))) (fun x => by rw [valF_mul ho, valF_div ho, hcv, hcv]) fast slow (· - (fast : Int))
    (Verif.Down.stream ((c :: cs).map (inQ e.o))) 0 0 []
  rw [LPR.calls_eq]
  refine ⟨_, congrArg some (Prod.ext rfl ?_)⟩
  show (after _ _ _ _ 0 0 (Verif.Down.stream (slicesQ (c :: cs)))).2.2 = _
  have h2 := this.2
  rw [slicesQ_map e.o, stream_map, foundQ_map e.o, ← h2]
  rw [valF_zero] at hm
  exact congrArg (fun t => t.2.2) hm

/-- **C135, accuracy of the complex filter.** A chain of calls on a new filter with factor `D`, samples finite and at most `M`: one output for each `D` samples, each
finite and near the exact sum of its samples. -/
theorem C135_complex_accuracy {e : Env} (ho : Ieee e.o) {fi : BitVec 32} {D : Nat} (hD : 0 < D) {M : ℝ} (hM : 0 ≤ M) (c : Run) (cs : List Run)
    (hn : NewC c.s.mem fi D) (h : ∀ d ∈ c :: cs, Ran e 3 8 fi d) (hl : Linked fi (c :: cs))
    (hx : ∀ x ∈ givenC (c :: cs), x.Fin ∧ |val x.re| ≤ M ∧ |val x.im| ≤ M) (hu : 2 * (uR binary32 * D) ≤ 1) (ht : 2 * (D * M) + D ≤ 2 ^ binary32.emax) :
    (foundC (c :: cs)).length = (givenC (c :: cs)).length / D ∧
      ∀ k < (foundC (c :: cs)).length, ∃ x : CVal binary32, (foundC (c :: cs))[k]? = some x ∧ x.Fin ∧
        |val x.re - Verif.Down.total (Verif.Down.reals (((givenC (c :: cs)).take ((k + 1) * D)).drop (k * D)))|
          ≤ uR binary32 * D ^ 2 * M + 2 * D * wR binary32 ∧
        |val x.im - Verif.Down.total (Verif.Down.imags (((givenC (c :: cs)).take ((k + 1) * D)).drop (k * D)))|
          ≤ uR binary32 * D ^ 2 * M + 2 * D * wR binary32 := by
  obtain ⟨f, hf⟩ := found_callsC ho c cs hn h hl
  obtain ⟨outs, f', r1, r2, r3⟩ := Verif.Down.C109_complex_rounded binary32_ok hM D hD (slicesC (c :: cs)) (by rw [stream_slicesC]; exact hx) hu ht
  rw [hf, Option.some.injEq, Prod.mk.injEq] at r1
  rw [stream_slicesC] at r2 r3
  rw [r1.2]
  exact ⟨r2, r3⟩

/-- **C135, accuracy of the rational filter** (partial like `C135_rational_partial`; rates below 2²²). -/
theorem C135_rational_accuracy_partial {e : Env} (ho : Ieee e.o) (hc : e.o.cvt = X86.Avo.ieeeCvt32) {fi : BitVec 32} {fast slow : Nat} (h0 : 0 < slow)
    (h1 : slow ≤ fast) (h2 : fast < 2 ^ 22) {M : ℝ} (hM : 0 ≤ M) (hM2 : M ≤ 2 ^ 64) (c : Run) (cs : List Run) (hn : NewQ c.s.mem fi fast slow)
    (h : ∀ d ∈ c :: cs, Ran e 66 4 fi d ∧ OneSide d.ib d.n ∧ d.s.fpscr.extractLsb' 16 3 = 0) (hl : Linked fi (c :: cs))
    (hx : ∀ x ∈ givenQ (c :: cs), Finite x ∧ |val x| ≤ M) :
    (foundQ (c :: cs)).length = (givenQ (c :: cs)).length * slow / fast ∧
      ∀ k < (foundQ (c :: cs)).length, ∃ x : FVal binary32, (foundQ (c :: cs))[k]? = some x ∧ Finite x ∧
        |val x - Verif.Down.total (((givenQ (c :: cs)).take (((k + 1) * fast + slow - 1) / slow)).drop ((k * fast + slow - 1) / slow)) * ((slow : ℝ) / fast)|
          ≤ (2 * uR binary32 * ((fast / slow + 1 : ℕ) : ℝ) * (((fast / slow + 1 : ℕ) : ℝ) + 2) * M
              + 4 * ((fast / slow + 1 : ℕ) : ℝ) * wR binary32) * ((slow : ℝ) / fast) + wR binary32 := by
  obtain ⟨f, hf⟩ := found_callsQ ho hc h1 (by omega) (by omega) c cs hn h hl
  obtain ⟨outs, f', r1, r2, r3⟩ := Verif.Down.C109_rational_rounded hM fast slow h0 h1 h2 (slicesQ (c :: cs)) (by rw [stream_slicesQ]; exact hx) hM2
  rw [hf, Option.some.injEq, Prod.mk.injEq] at r1
  rw [stream_slicesQ] at r2 r3
  rw [r1.2]
  exact ⟨r2, r3⟩

/-! ### Examples -/

/-- IEEE-754 arithmetic with conversions, one page of memory. -/
def machineF : Env := { Demod.machineD with o := { Demod.machineD.o with cvt := X86.Avo.ieeeCvt32 } }

theorem machineF_ieee : Ieee machineF.o := ⟨rfl, rfl, rfl, rfl, rfl⟩

/-- A call: a filter at 0x2000 with first words `x` and `y`, five samples at 0x2100 with all parts 1. -/
def callF (x y : BitVec 32) : St where
  r := fun _ => 7
  v := fun i => BitVec.ofNat 32 i
  fl := ⟨false, false, false, false⟩
  fpscr := 0
  mem := fun a => byte (if a.toNat < 0x2004 then x else if a.toNat < 0x2008 then y else if a.toNat < 0x2010 then 0 else 0x3F800000) (a.toNat % 4)
  fp := fun i => if i = 0 then 0x2000 else if i = 4 then 0x2100 else if i = 8 then 5 else if i = 12 then 5 else 99

theorem callF_call (x y : BitVec 32) : Call (callF x y) 0x2000 0x2100 5 := ⟨by decide, rfl, rfl, rfl⟩

theorem callF_places8 : Places machineF 0x2000 0x2100 (8 * 5) :=
  ⟨⟨by decide, by decide +kernel, by decide +kernel⟩, ⟨by decide, by decide, by decide +kernel, by decide +kernel⟩, by decide +kernel⟩

theorem callF_places4 : Places machineF 0x2000 0x2100 (4 * 5) :=
  ⟨⟨by decide, by decide +kernel, by decide +kernel⟩, ⟨by decide, by decide, by decide +kernel, by decide +kernel⟩, by decide +kernel⟩

/-- Factor 2 and five samples: the call returns two, both near 2. -/
example : ∃ s', Returns (sem machineF) prog 3 (callF 2 0) s' ∧ FilteredC machineF.o 0x2000 0x2100 5 2 (callF 2 0) s' ∧
    |val (f32at s'.mem 0x2108) - 2| ≤ 1 / 2 ^ 20 := by
  obtain ⟨s', k, h1, h2, -⟩ := C135_complex (e := machineF) (callF_call 2 0) callF_places8 (by decide +kernel)
  have hnew : NewC (callF 2 0).mem 0x2000 2 := by unfold NewC; decide +kernel
  have hg : ∀ i < 5, complexAt (callF 2 0).mem 0x2100 i = ⟨.fin false 1, .fin false 1⟩ := by
    intro i hi
    have a : u32at (callF 2 0).mem (0x2100 + BitVec.ofNat 32 (8 * i)) = 0x3F800000 := by revert i; decide +kernel
    have b : u32at (callF 2 0).mem (0x2100 + BitVec.ofNat 32 (8 * i + 4)) = 0x3F800000 := by revert i; decide +kernel
    unfold complexAt f32at
    rw [a, b, Demod.val_one32]
  have hgiven : givenC [⟨callF 2 0, s', 0x2100, 5⟩] = List.replicate 5 ⟨.fin false 1, .fin false 1⟩ := by
    show ((List.range 5).map (complexAt (callF 2 0).mem 0x2100)) ++ [] = _
    rw [List.append_nil, List.map_congr_left (g := fun _ => ⟨.fin false 1, .fin false 1⟩) (fun i hi => hg i (List.mem_range.1 hi))]
    rfl
  have v1 : val (.fin false 1) = 1 := by rw [val_fin]; norm_num
  have a := C135_complex_accuracy (e := machineF) machineF_ieee (fi := 0x2000) (D := 2) (by decide) (M := 1) zero_le_one ⟨callF 2 0, s', 0x2100, 5⟩ [] hnew
    (by
      intro d hd
      obtain rfl := List.mem_singleton.1 hd
      exact ⟨callF_call 2 0, callF_places8, h1⟩)
    trivial
    (by
      intro x hx
      rw [hgiven] at hx
      obtain rfl := List.eq_of_mem_replicate hx
      refine ⟨⟨⟨_, _, rfl, by norm_num⟩, ⟨_, _, rfl, by norm_num⟩⟩, ?_, ?_⟩ <;> simp only [v1] <;> norm_num)
    (by rw [Verif.Down.uR32]; norm_num) (le_trans (by norm_num) Verif.Down.big32)
  rw [hgiven] at a
  have hk : k = 2 := by
    have e1 : (foundC [⟨callF 2 0, s', 0x2100, 5⟩]).length = (s'.fp 20).toNat := by
      show (((List.range (s'.fp 20).toNat).map (complexAt s'.mem 0x2100)) ++ []).length = _
      simp
    obtain ⟨m', q, -⟩ := h2.run
    have := len_le q
    have := a.1
    rw [e1, h2.len, toNat32 (by omega), List.length_replicate] at this
    omega
  subst hk
  refine ⟨s', h1, h2, ?_⟩
  have hf : foundC [⟨callF 2 0, s', 0x2100, 5⟩] = [complexAt s'.mem 0x2100 0, complexAt s'.mem 0x2100 1] := by
    show ((List.range (s'.fp 20).toNat).map (complexAt s'.mem 0x2100)) ++ [] = _
    rw [h2.len]
    rfl
  obtain ⟨x, x1, -, x2, -⟩ := a.2 1 (by rw [hf]; exact Nat.lt_succ_self 1)
  rw [hf] at x1
  obtain rfl := Option.some.inj x1
  have w := Verif.Down.wR32
  rw [Verif.Down.uR32] at x2
  have t : Verif.Down.total (Verif.Down.reals (((List.replicate 5 (⟨.fin false 1, .fin false 1⟩ : CVal binary32)).take ((1 + 1) * 2)).drop (1 * 2))) = 2 := by
    show val (.fin false 1) + (val (.fin false 1) + 0) = 2
    rw [v1]
    norm_num
  rw [t] at x2
  refine le_trans x2 ?_
  norm_num at w ⊢
  linarith

/-- Rates 3 and 2 and five samples: the call returns three. -/
example : ∃ s', Returns (sem machineF) prog 66 (callF 3 2) s' ∧ FilteredQ machineF.o 0x2000 0x2100 5 3 (callF 3 2) s' := by
  obtain ⟨s', k, h1, h2, -⟩ := C135_rational_partial (e := machineF) (callF_call 3 2) callF_places4 (.inl (by decide)) rfl
    ⟨by decide +kernel, by decide +kernel, by decide +kernel, by decide +kernel⟩
  have hnew : NewQ (callF 3 2).mem 0x2000 3 2 := by unfold NewQ; decide +kernel
  have hg : ∀ i < 5, realAt (callF 3 2).mem 0x2100 i = .fin false 1 := by
    intro i hi
    have a : u32at (callF 3 2).mem (0x2100 + BitVec.ofNat 32 (4 * i)) = 0x3F800000 := by revert i; decide +kernel
    unfold realAt f32at
    rw [a, Demod.val_one32]
  have hgiven : givenQ [⟨callF 3 2, s', 0x2100, 5⟩] = List.replicate 5 (.fin false 1) := by
    show ((List.range 5).map (realAt (callF 3 2).mem 0x2100)) ++ [] = _
    rw [List.append_nil, List.map_congr_left (g := fun _ => .fin false 1) (fun i hi => hg i (List.mem_range.1 hi))]
    rfl
  have v1 : val (.fin false 1) = 1 := by rw [val_fin]; norm_num
  have a := C135_rational_accuracy_partial (e := machineF) machineF_ieee rfl (fi := 0x2000) (fast := 3) (slow := 2) (by decide) (by decide) (by decide) (M := 1)
    zero_le_one (by norm_num) ⟨callF 3 2, s', 0x2100, 5⟩ [] hnew
    (by
      intro d hd
      obtain rfl := List.mem_singleton.1 hd
      exact ⟨⟨callF_call 3 2, callF_places4, h1⟩, .inl (show (0x2100 : BitVec 32).toNat + 4 * 5 < 2 ^ 31 by decide), show (callF 3 2).fpscr.extractLsb' 16 3 = 0 from rfl⟩)
    trivial
    (by
      intro x hx
      rw [hgiven] at hx
      obtain rfl := List.eq_of_mem_replicate hx
      refine ⟨⟨_, _, rfl, by norm_num⟩, ?_⟩
      simp only [v1]
      norm_num)
  have hk : k = 3 := by
    have e1 : (foundQ [⟨callF 3 2, s', 0x2100, 5⟩]).length = (s'.fp 20).toNat := by
      show (((List.range (s'.fp 20).toNat).map (realAt s'.mem 0x2100)) ++ []).length = _
      simp
    obtain ⟨m', q, -⟩ := h2.run
    have := len_leQ q
    have := a.1
    have e2 : (givenQ [⟨callF 3 2, s', 0x2100, 5⟩]).length = 5 := by rw [hgiven]; rfl
    rw [e1, h2.len, toNat32 (by omega), e2] at this
    omega
  subst hk
  exact ⟨s', h1, h2⟩

/-- Two calls one after the other with nothing stored in between, as `C135_complex_calls` asks for. -/
example : ∃ c d : Run, c.s = callF 2 0 ∧ d.s = { callF 2 0 with mem := c.s'.mem } ∧ Linked 0x2000 [c, d] ∧ Ran machineF 3 8 0x2000 c ∧ Ran machineF 3 8 0x2000 d := by
  obtain ⟨s1, k1, h1, -, i1⟩ := C135_complex (e := machineF) (callF_call 2 0) callF_places8 (by decide +kernel)
  have hc : Call { callF 2 0 with mem := s1.mem } 0x2000 0x2100 5 := ⟨by decide, rfl, rfl, rfl⟩
  obtain ⟨s2, k2, h2, -⟩ := C135_complex (e := machineF) hc callF_places8 i1
  exact ⟨⟨callF 2 0, s1, 0x2100, 5⟩, ⟨_, s2, 0x2100, 5⟩, rfl, rfl, ⟨fun _ _ => rfl, trivial⟩, ⟨callF_call 2 0, callF_places8, h1⟩, ⟨hc, callF_places8, h2⟩⟩

/-- Memory without bounds, and a slice across address 2³¹. -/
def machineG : Env := { machineF with rd := fun _ => true, wr := fun _ => true }
def callG : St := { callF 1 1 with fp := fun i => if i = 4 then 0x7FFFFFF8 else (callF 1 1).fp i }

/-- At equal rates the portable code would give out all five samples. -/
example : ∃ s', Returns (sem machineG) prog 66 callG s' ∧ s'.mem = callG.mem ∧ s'.fp 20 = 0 ∧ ¬ ∃ k, FilteredQ machineG.o 0x2000 0x7FFFFFF8 5 k callG s' := by
  obtain ⟨s', h1, h2, -, h3, h4⟩ := C135_violated_rational (e := machineG) (s := callG) (fi := 0x2000) (ib := 0x7FFFFFF8) (n := 5) ⟨by decide, rfl, rfl, rfl⟩
    ⟨⟨by decide, fun _ _ => rfl, fun _ _ => rfl⟩, ⟨by decide, by decide, fun _ _ => rfl, fun _ _ => rfl⟩, by decide +kernel⟩ (by decide) (by decide) (by decide) rfl
  exact ⟨s', h1, h2, h3, h4 ⟨by decide +kernel, by decide +kernel, by decide +kernel, by decide +kernel⟩ (by decide +kernel)⟩

end Verif.A32.Down
