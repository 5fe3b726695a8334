import Verif.Dtmf.DialFp
import Verif.Dtmf.DialSeq
import Verif.Ax25.EarFp

/-!
# Property C140: from the sound to the printed digits
-/

namespace Verif.Dtmf
open Verif.Fp Verif.Conv Verif.Dft Verif.Filt Verif.WinFp Real Dial

/-! ## Specification -/

/-- A key that is held down from sample `start` to before sample `stop`: tones of frequencies `f` and `g`, amplitudes `A` and `B` and
phases `φ` and `ψ`. -/
structure Press where
  key : Char
  start : Nat
  stop : Nat
  (f g A B φ ψ : ℝ)

/-- The sound at sample `k`, at 8000 samples per second. -/
noncomputable def Press.wave (p : Press) (k : Nat) : ℝ :=
  p.A * Real.cos (2 * π * p.f * k / 8000 + p.φ) + p.B * Real.cos (2 * π * p.g * k / 8000 + p.ψ)

/-- The tones are those of the key up to a quarter of a percent, none is more than one and a half times as strong as the other, neither is weaker than
the last bit of a sample, and the key is held for at least 714 samples, that is 90 ms. -/
structure Press.Ok (p : Press) : Prop where
  tone : ∃ lo hi, tones p.key = some (lo, hi) ∧ |p.f - lo| ≤ lo / 400 ∧ |p.g - hi| ≤ hi / 400
  weakA : 1 / 2 ^ 15 ≤ p.A
  weakB : 1 / 2 ^ 15 ≤ p.B
  ratioA : p.A ≤ 1.5 * p.B
  ratioB : p.B ≤ 1.5 * p.A
  bound : p.A ≤ 2 ^ 20
  long : p.start + 714 ≤ p.stop

/-- The samples `s 0, …, s (len - 1)` are the presses `ps` with a noise of at most one thirtieth of the weaker tone, and silence between them, of
at least 255 samples, that is 32 ms. -/
structure Dialled (s : Nat → ℝ) (len : Nat) (ps : List Press) : Prop where
  ok : ∀ p ∈ ps, p.Ok
  within : ∀ p ∈ ps, p.stop ≤ len
  apart : ps.Pairwise fun p q => p.stop + 255 ≤ q.start
  sound : ∀ p ∈ ps, ∀ k, p.start ≤ k → k < p.stop → |s k - p.wave k| ≤ min p.A p.B / 30
  silent : ∀ k < len, (∀ p ∈ ps, ¬ (p.start ≤ k ∧ k < p.stop)) → s k = 0

/-- Sample `k` of a file of 16-bit little-endian numbers, full scale being one. -/
noncomputable def level (bytes : List (BitVec 8)) (k : Nat) : ℝ := ((bytes.getD (2 * k + 1) 0 ++ bytes.getD (2 * k) 0).toInt : ℝ) / 32768

/-! ## The samples -/

/-- Sample `k` of the file, converted. -/
def stream (bytes : List (BitVec 8)) (k : Nat) : FVal binary32 := conv16 (bytes.getD (2 * k + 1) 0 ++ bytes.getD (2 * k) 0)

theorem conv16_val (lo hi : BitVec 8) : Fp.Finite (conv16 (hi ++ lo)) ∧ val (conv16 (hi ++ lo)) = ((hi ++ lo).toInt : ℝ) / 32768 := by
  have h := Verif.Ax25.Ear.sample_val lo hi
  have e : Verif.Ax25.Ear.sample lo hi = conv16 (hi ++ lo) := by
    rw [← int16Of_eq]
    rfl
  have e2 : Verif.Ax25.Ear.word lo hi = (hi ++ lo).toInt := by
    rw [← int16Of_eq]
    rfl
  rw [e, e2] at h
  exact ⟨h.1, h.2.2.2⟩

theorem isZero_of_val {φ : Format} {v : FVal φ} (hv : Fp.Finite v) (h : val v = 0) : IsZero v := by
  obtain ⟨s, q, rfl, -⟩ := hv
  refine ⟨s, ?_⟩
  rw [val_fin] at h
  have : q = 0 := by
    rcases s with _ | _ <;> simpa using h
  rw [this]

theorem seen_congr {S : Type} [Mul S] [Zero S] {N win : Nat} (hw : 0 < win) (w : Nat → S) {x y : Nat → Nat → S} {n : Nat}
    (h : ∀ j < n, ∀ i < win, x j i = y j i) {j i : Nat} (hj : j < n) (hi : i < N) : seen N win w x j i = seen N win w y j i := by
  unfold seen
  dsimp only
  have h1 := Nat.div_add_mod (N - 1 - i) win
  have h2 := Nat.mod_lt (N - 1 - i) hw
  generalize (N - 1 - i) / win = q at *
  rw [Nat.mul_comm] at h1
  congr 1
  split
  · exact h _ (by omega) _ (by omega)
  · rfl

/-! ## The run -/

/-- `n` turns of the main loop with the samples `x 0`, `x 1`, …. -/
def RunFp (t : Tool) (d : DTMF (FVal binary64) (FVal binary32)) (x : Nat → Nat → FVal binary32) : Nat → (Nat → FVal binary32) → Keys → Prop
  | 0, m, keys => m = (fun _ => 0) ∧ keys = Keys.start
  | n + 1, m', keys' => ∃ m keys, RunFp t d x n m keys ∧ TurnFp t d m keys (x n) m' keys'

theorem feedFp_lt {other : Val → Nat} {cos sin : FVal binary64 → FVal binary64} {fs n : Nat} {d : DTMF (FVal binary64) (FVal binary32)}
    (hd : NewStandardFp other cos sin fs n d) {m : Nat → FVal binary32} {s : Slice} {key : Nat} {thresh : FVal binary32}
    (h : FeedFp d m s key thresh) : key < 16 := by
  obtain ⟨es, w, -, -, rfl⟩ := hd
  obtain ⟨s', m', low, high, -, -, t3, t4, rfl, -⟩ := h
  have l1 : low.length = 4 := by
    have := t3.length_eq
    simpa [stdLowFreq] using this.symm
  have l2 : high.length = 4 := by
    have := t4.length_eq
    simpa [stdHighFreq] using this.symm
  have b1 := maxOf_lt low (by rintro rfl; simp at l1)
  have b2 := maxOf_lt high (by rintro rfl; simp at l2)
  have e : stdHighFreq.length = 4 := rfl
  simp only [e]
  omega

theorem standardFp_sizes {other : Val → Nat} {cos sin : FVal binary64 → FVal binary64} {fs n : Nat} {d : DTMF (FVal binary64) (FVal binary32)}
    (hd : NewStandardFp other cos sin fs n d) : d.w.length = n ∧ d.blockSize = n := by
  have h1 := standard_ok hd
  obtain ⟨es, w, -, -, rfl⟩ := hd
  exact ⟨h1, rfl⟩

theorem run_det {other : Val → Nat} {cos sin : FVal binary64 → FVal binary64} {fs : Nat} (t : Tool) (hw : 0 < t.window) (hN : t.window ≤ t.blockSize)
    (d : DTMF (FVal binary64) (FVal binary32)) (hd : NewStandardFp other cos sin fs t.blockSize d)
    (x : Nat → Nat → FVal binary32) (n : Nat) : ∀ m keys, RunFp t d x n m keys →
    ∃ det : Nat → Nat × FVal binary32, (∀ i, (det i).1 < 16) ∧
      (∀ j < n, ∃ mj, (∀ i < t.blockSize, mj i = seen t.blockSize t.window (fun i => d.w.getD i 0) x j i) ∧ FeedFp d mj ⟨0, t.blockSize⟩ (det j).1 (det j).2) ∧
      (∀ i < t.blockSize, m i = if n = 0 then 0 else seen t.blockSize t.window (fun i => d.w.getD i 0) x (n - 1) i * d.w.getD i 0) ∧
      forRange n Keys.start (fun i st => press t st (det i).1 (det i).2) = some keys := by
  obtain ⟨hwl, hsz⟩ := standardFp_sizes hd
  induction n with
  | zero =>
    rintro m keys ⟨rfl, rfl⟩
    exact ⟨fun _ => (0, 0), fun _ => by simp, fun j hj => by omega, fun i _ => rfl, rfl⟩
  | succ n ih =>
    rintro m' keys' ⟨m, keys, h1, m1, key, thresh, s, t1, t2, t3, t4, t5⟩
    obtain ⟨det, d1, d2, d3, d4⟩ := ih m keys h1
    obtain ⟨m2, s1, s2⟩ := shiftIn_eq t hN m (x n)
    rw [t1] at s1
    obtain rfl := Option.some.inj s1
    have hm : ∀ i < t.blockSize, m1 i = seen t.blockSize t.window (fun i => d.w.getD i 0) x n i := by
      intro i hi
      rw [s2 i hi]
      split
      · rename_i hlt
        rw [d3 _ hlt]
        rcases n with _ | n
        · rw [if_pos rfl, seen_start _ _ hw _ _ _ hlt]
        · rw [if_neg (by omega), seen_old _ _ hw _ _ _ _ hlt, Nat.add_sub_cancel]
      · rw [seen_new _ _ _ _ _ _ (by omega) hi]
    have hs : s = ⟨0, t.blockSize⟩ := by
      unfold trim at t3
      rw [hsz, if_neg (by simp)] at t3
      exact (Option.some.inj t3).symm
    subst hs
    rw [applyWindow_eq _ _ _ (by simp only; omega)] at t4
    have e2 := Option.some.inj t4
    have hdet : ∀ j < n, Function.update det n (key, thresh) j = det j := fun j hj => Function.update_of_ne (by omega) _ _
    refine ⟨Function.update det n (key, thresh), fun i => ?_, fun j hj => ?_, fun i hi => ?_, ?_⟩
    · by_cases h : i = n
      · subst h
        rw [Function.update_self]
        exact feedFp_lt hd t2
      · rw [Function.update_of_ne h]
        exact d1 i
    · by_cases h : j = n
      · subst h
        rw [Function.update_self]
        exact ⟨m1, hm, t2⟩
      · rw [Function.update_of_ne h]
        exact d2 j (by omega)
    · rw [← e2, if_neg (by omega), Nat.add_sub_cancel, ← hm i hi]
      conv => lhs; rw [show i = 0 + i by omega]
      rw [fill_in (by simpa using hi)]
      simp
    · rw [forRange, forRange_congr n _ _ (fun i st => press t st (det i).1 (det i).2) fun i hi => by rw [hdet i hi], d4, Option.bind_some,
        Function.update_self]
      exact t5

theorem file_run (d : DTMF (FVal binary64) (FVal binary32)) (suf : List (List (BitVec 8))) : ∀ (pre : List (List (BitVec 8)))
    (buf : Nat → BitVec 8) (m : Nat → FVal binary32) (keys : Keys) (r : EndedFp),
    (∀ p, buf p = if pre.length = 0 then 0 else lastStored (pre ++ suf) p (pre.length - 1)) →
    RunFp fileTool d (fileSamples conv16 (pre ++ suf)) pre.length m keys → FileFp d buf m keys (suf.map Got.data ++ [.eof]) r →
    ∃ m' k, r = .newline k ∧ RunFp fileTool d (fileSamples conv16 (pre ++ suf)) (pre ++ suf).length m' k := by
  induction suf with
  | nil =>
    intro pre buf m keys r _ h1 h2
    refine ⟨m, keys, h2, ?_⟩
    rw [List.append_nil] at h1 ⊢
    exact h1
  | cons b suf ih =>
    intro pre buf m keys r hbuf h1 h2
    obtain ⟨m', keys', u1, u2⟩ := h2
    have e : pre ++ b :: suf = (pre ++ [b]) ++ suf := by simp
    have hl : (pre ++ [b]).length = pre.length + 1 := by simp
    have eb : (pre ++ b :: suf).getD pre.length [] = b := by simp [List.getD_eq_getElem?_getD]
    have hb : ∀ p, overwrite buf b p = lastStored (pre ++ b :: suf) p pre.length := by
      intro p
      unfold overwrite
      rw [hbuf]
      rcases hn : pre.length with _ | n
      · rw [hn] at eb
        simp only [lastStored]
        rw [eb, if_pos trivial, List.getD_eq_getElem?_getD]
      · rw [hn] at eb
        simp only [lastStored]
        rw [eb, if_neg (by omega), Nat.add_sub_cancel]
        split
        · rename_i hp
          rw [List.getD_eq_getElem?_getD, List.getElem?_eq_getElem hp]
          rfl
        · rename_i hp
          rw [List.getElem?_eq_none (by omega)]
          rfl
    have hx : (fun i => conv16 (int16Of (overwrite buf b (2 * i)) (overwrite buf b (2 * i + 1)))) = fileSamples conv16 (pre ++ b :: suf) pre.length := by
      funext i
      rw [int16Of_eq, hb, hb]
      rfl
    rw [hx] at u1
    rw [e] at hb h1 u1 ⊢
    exact ih (pre ++ [b]) (overwrite buf b) m' keys' r (fun p => by rw [hb, hl, if_neg (by omega), Nat.add_sub_cancel])
      (by rw [hl]; exact ⟨m, keys, h1, u1⟩) u2

/-! ## The blocks -/

theorem wave_shift (p : Press) (s0 i : Nat) : p.wave (s0 + i) =
    p.A * toneAt p.f 8000 (2 * π * p.f * s0 / 8000 + p.φ) i + p.B * toneAt p.g 8000 (2 * π * p.g * s0 / 8000 + p.ψ) i := by
  unfold Press.wave toneAt
  push_cast
  congr 3 <;> ring

/-- The blocks of the presses. -/
theorem dialled_rings {det : Nat → Nat × FVal binary32} {n : Nat} (ps : List Press) : ∀ x, (∀ p ∈ ps, p.start + 714 ≤ p.stop ∧ p.stop ≤ 51 * n) →
    (ps.Pairwise fun p q => p.stop + 255 ≤ q.start) → (∀ p ∈ ps, x < p.start / 51 ∨ x = 0) →
    (∀ i, x ≤ i → i < n → (∀ p ∈ ps, ¬ (p.start / 51 ≤ i ∧ i ≤ p.stop / 51 + 3)) → ¬ (det i).2 > 0) →
    (∀ p ∈ ps, ∀ i, p.start / 51 + 4 ≤ i → i + 1 ≤ p.stop / 51 → keypad[(det i).1]? = some p.key ∧ (det i).2 > 0) →
    Rings 9 4 det n x (ps.map fun p => (p.start / 51, p.start / 51 + 4, p.stop / 51 - 1, p.stop / 51 + 4, p.key)) := by
  induction ps with
  | nil => exact fun x _ _ _ h _ i h1 h2 => h i h1 h2 (by simp)
  | cons p ps ih =>
    intro x h1 h2 h3 h4 h5
    obtain ⟨l1, l2⟩ := h1 p (by simp)
    rw [List.pairwise_cons] at h2
    rw [List.map_cons]
    refine ⟨?_, ?_, by omega, by omega, by omega, by omega, by omega, by omega, fun i i1 i2 => h5 p (by simp) i i1 (by omega), ?_⟩
    · rcases h3 p (by simp) with h | h <;> omega
    · intro i i1 i2
      refine h4 i i1 (by omega) fun q hq hh => ?_
      rcases List.mem_cons.1 hq with rfl | hq
      · omega
      · have := h2.1 q hq
        omega
    · refine ih _ (fun q hq => h1 q (by simp [hq])) h2.2 (fun q hq => ?_) (fun i i1 i2 hh => ?_) fun q hq => h5 q (by simp [hq])
      · have := h2.1 q hq
        omega
      · refine h4 i ?_ i2 fun q hq => ?_
        · rcases h3 p (by simp) with h | h <;> omega
        rcases List.mem_cons.1 hq with rfl | hq
        · omega
        · exact hh q hq

/-- **C140**: the program examples/dtmf_file.go, computed with rounding on any platform whose cosine and sine are within `2^-50`, prints the keys that are
dialled, each once and in order, and a newline, if every read fills the buffer. -/
theorem C140_dialled_partial (other : Val → Nat) (cos sin : FVal binary64 → FVal binary64) (η : ℝ) (hη0 : 0 ≤ η) (hη : η ≤ 1 / 2 ^ 50)
    (hT : Trig cos sin 21 η) (d : DTMF (FVal binary64) (FVal binary32)) (hd : NewStandardFp other cos sin 8000 205 d)
    (bs : List (List (BitVec 8))) (hb : ∀ b ∈ bs, b.length = 102) (ps : List Press) (hp : Dialled (level bs.flatten) (51 * bs.length) ps)
    (r : EndedFp) (hr : FileFp d (fun _ => 0) (fun _ => 0) Keys.start (bs.map Got.data ++ [.eof]) r) :
    ∃ k, r = .newline k ∧ k.out = ps.map Press.key := by
  obtain ⟨m', k, rfl, hrun⟩ := file_run d bs [] (fun _ => 0) (fun _ => 0) Keys.start r (fun p => rfl) ⟨rfl, rfl⟩ hr
  rw [List.nil_append] at hrun
  obtain ⟨det, d1, d2, -, d4⟩ := run_det fileTool (by decide) (by decide) d hd _ _ _ _ hrun
  obtain ⟨st, p1, -, -, -, p5⟩ := press_run fileTool (by decide) det d1 bs.length
  rw [d4] at p1
  obtain rfl := Option.some.inj p1
  refine ⟨k, rfl, ?_⟩
  rw [p5]
  have hfile : ∀ j < bs.length, ∀ i < 51, fileSamples conv16 bs j i = (fun k r => stream bs.flatten (k * 51 + r)) j i :=
    fun j hj i hi => C87_full_partial conv16 bs hb j i hj hi
  have hseen : ∀ j < bs.length, ∃ mj, (∀ i < 205, mj i = aged (fun i => d.w.getD i 0) 51 i (recent 205 51 (stream bs.flatten) j i)
      (min ((204 - i) / 51) j)) ∧ FeedFp d mj ⟨0, 205⟩ (det j).1 (det j).2 := by
    intro j hj
    obtain ⟨mj, h1, h2⟩ := d2 j hj
    refine ⟨mj, fun i hi => ?_, h2⟩
    have e1 := h1 i hi
    have eN : fileTool.blockSize = 205 := rfl
    have eW : fileTool.window = 51 := rfl
    rw [eN, eW] at e1
    rw [e1, seen_congr (by norm_num) _ hfile hj hi, C87_seen 205 51 (by norm_num) _ _ _ _ hi (by norm_num)]
  have hval : ∀ k, Fp.Finite (stream bs.flatten k) ∧ val (stream bs.flatten k) = level bs.flatten k := fun k => conv16_val _ _
  have hrings := dialled_rings (det := det) (n := bs.length) ps 0 (fun p h => ⟨(hp.ok p h).long, hp.within p h⟩) hp.apart (fun p _ => Or.inr rfl)
    (fun j _ hj hun => by
      obtain ⟨mj, h1, h2⟩ := hseen j hj
      refine block_silent hη0 hη hT hd (q := fun i => min ((204 - i) / 51) j) (fun i hi => by show i + 51 * min ((204 - i) / 51) j < 205; omega) h1 (fun i hi => ?_) h2
      unfold recent
      split
      · obtain ⟨v1, v2⟩ := hval (j * 51 + 51 + i - 205)
        refine isZero_of_val v1 ?_
        rw [v2]
        refine hp.silent _ (by omega) fun p hpp hh => hun p hpp ?_
        omega
      · exact ⟨false, rfl⟩)
    (fun p hpp j j1 j2 => by
      have hst := hp.within p hpp
      obtain ⟨mj, h1, h2⟩ := hseen j (by omega)
      obtain ⟨⟨lo, hi, c1, c2, c3⟩, wA, wB, rA, rB, bd, -⟩ := hp.ok p hpp
      refine block_key hη0 hη hT hd c1 c2 c3 wA wB bd rB rA (φ := 2 * π * p.f * (j * 51 + 51 - 205 : ℕ) / 8000 + p.φ)
        (ψ := 2 * π * p.g * (j * 51 + 51 - 205 : ℕ) / 8000 + p.ψ) (X := recent 205 51 (stream bs.flatten) j)
        (fun i hi => by rw [h1 i hi, show min ((204 - i) / 51) j = (204 - i) / 51 by omega]) (fun i hi => ?_) h2
      unfold recent
      rw [if_pos (by omega), ← wave_shift, show j * 51 + 51 + i - 205 = j * 51 + 51 - 205 + i by omega]
      obtain ⟨v1, v2⟩ := hval (j * 51 + 51 - 205 + i)
      rw [v2]
      exact ⟨v1, hp.sound p hpp _ (by omega) (by omega)⟩)
  have := rings_printed 9 4 (by norm_num) det bs.length _ 0 hrings
  rw [List.map_map] at this
  have e9 : fileTool.repeats = 9 := rfl
  rw [e9, this, Nat.zero_min]
  rfl

/-! ## The program that fuses nothing -/

theorem turn_unfused {other : Val → Nat} {cos sin : FVal binary64 → FVal binary64} {fs : Nat} {t : Tool} {d : DTMF (FVal binary64) (FVal binary32)}
    (hd : NewStandardFp other cos sin fs t.blockSize d) {l l' : Loop (FVal binary64) (FVal binary32)} {x : Nat → FVal binary32}
    (hw : l.d.w = d.w) (hs : l.d.blockSize = d.blockSize) (hn : l.d.nHigh = d.nHigh) (hlo : reset l.d.lowFreq = reset d.lowFreq)
    (hhi : reset l.d.highFreq = reset d.highFreq) (h : l.turn widen narrow t x = some l') : TurnFp t d l.m l.keys x l'.m l'.keys ∧
    l'.d.w = d.w ∧ l'.d.blockSize = d.blockSize ∧ l'.d.nHigh = d.nHigh ∧ reset l'.d.lowFreq = reset d.lowFreq ∧ reset l'.d.highFreq = reset d.highFreq := by
  obtain ⟨hwl, hsz⟩ := standardFp_sizes hd
  unfold Loop.turn at h
  simp only [Option.bind_eq_bind] at h
  rcases h1 : shiftIn t l.m x with _ | m1
  · rw [h1] at h; cases h
  rw [h1, Option.bind_some] at h
  have hok : l.d.Ok := by
    show l.d.w.length = l.d.blockSize
    rw [hw, hs, hwl, hsz]
  rw [feed_closed widen narrow l.d hok, Option.bind_some] at h
  dsimp only at h
  rcases h2 : press t l.keys (outcome widen narrow (reset l.d.lowFreq) (reset l.d.highFreq) l.d.nHigh (windowed l.d.w l.d.blockSize (contents m1 ⟨0, t.blockSize⟩))).1
    (outcome widen narrow (reset l.d.lowFreq) (reset l.d.highFreq) l.d.nHigh (windowed l.d.w l.d.blockSize (contents m1 ⟨0, t.blockSize⟩))).2 with _ | k
  · rw [h2] at h; cases h
  rw [h2, Option.bind_some] at h
  obtain rfl := Option.some.inj h
  rw [hlo, hhi, hn, hw, hs] at h2
  have hdok : d.Ok := hwl.trans hsz.symm
  obtain ⟨rr, f1, f2⟩ := C103_unfused d hdok m1 ⟨0, t.blockSize⟩
  rw [feed_closed widen narrow d hdok] at f1
  obtain rfl := Option.some.inj f1
  have fr : ∀ (q : List (Gz (FVal binary64))) b, reset (Verif.Dft.feed widen (reset q) b) = reset q := fun q b => reset_feed widen _ (reset_fresh _) _
  refine ⟨⟨m1, _, _, ⟨0, t.blockSize⟩, h1, f2, ?_, ?_, h2⟩, hw, hs, hn, ?_, ?_⟩
  · unfold trim
    rw [hsz, if_neg (by simp)]
  · rw [applyWindow_eq _ _ _ (by simp only; omega)]
    simp only [hw, hs, hsz, Nat.min_self]
  · show reset (Verif.Dft.feed widen (reset l.d.lowFreq) _) = _
    rw [fr, hlo]
  · show reset (Verif.Dft.feed widen (reset l.d.highFreq) _) = _
    rw [fr, hhi]

/-- C140: the program that rounds every operation, `fileLoop` of C87, is one of those `FileFp` allows. -/
theorem file_unfused {other : Val → Nat} {cos sin : FVal binary64 → FVal binary64} {d : DTMF (FVal binary64) (FVal binary32)}
    (hd : NewStandardFp other cos sin 8000 205 d) (bs : List (List (BitVec 8))) : ∀ (buf : Nat → BitVec 8) (l : Loop (FVal binary64) (FVal binary32)),
    l.d.w = d.w → l.d.blockSize = d.blockSize → l.d.nHigh = d.nHigh → reset l.d.lowFreq = reset d.lowFreq → reset l.d.highFreq = reset d.highFreq →
    ∀ l', fileLoop widen narrow conv16 buf l (bs.map Got.data ++ [.eof]) = some (.newline l') →
      FileFp d buf l.m l.keys (bs.map Got.data ++ [.eof]) (.newline l'.keys) := by
  induction bs with
  | nil =>
    intro buf l _ _ _ _ _ l' h
    simp only [List.map_nil, List.nil_append, fileLoop, Option.some.injEq, Ended.newline.injEq] at h
    subst h
    rfl
  | cons b bs ih =>
    intro buf l h1 h2 h3 h4 h5 l' h
    simp only [List.map_cons, List.cons_append, fileLoop] at h
    rcases ht : l.turn widen narrow fileTool (fun i => conv16 (int16Of (overwrite buf b (2 * i)) (overwrite buf b (2 * i + 1)))) with _ | l2
    · rw [ht] at h; cases h
    rw [ht, Option.bind_some] at h
    obtain ⟨t1, t2, t3, t4, t5, t6⟩ := turn_unfused (t := fileTool) hd h1 h2 h3 h4 h5 ht
    exact ⟨l2.m, l2.keys, t1, ih _ l2 t2 t3 t4 t5 t6 l' h⟩

/-- C140: there is always something the program may do, and the program that fuses nothing prints what C140 says. -/
theorem C140_unfused (other : Val → Nat) (cos sin : FVal binary64 → FVal binary64) (d : DTMF (FVal binary64) (FVal binary32))
    (hd : NewStandardFp other cos sin 8000 205 d) (bs : List (List (BitVec 8))) :
    ∃ l, fileLoop widen narrow conv16 (fun _ => 0) ⟨d, fun _ => 0, Keys.start⟩ (bs.map Got.data ++ [.eof]) = some (.newline l) ∧
      FileFp d (fun _ => 0) (fun _ => 0) Keys.start (bs.map Got.data ++ [.eof]) (.newline l.keys) := by
  obtain ⟨hwl, hsz⟩ := standardFp_sizes hd
  have hst : Standard fileTool d := by
    obtain ⟨es, w, -, -, rfl⟩ := hd
    exact ⟨hwl, hsz, by simp [stdLowFreq], by simp [stdHighFreq], rfl⟩
  obtain ⟨l, -, -, h⟩ := C87_file widen narrow conv16 d hst bs
  exact ⟨l, h, file_unfused hd bs _ _ rfl rfl rfl rfl rfl l h⟩

/-! ## Files -/

/-- The 16-bit number nearest to a level. -/
theorem exists_word (y : ℝ) (hy : |y| ≤ 0.9999) : ∃ v : BitVec 16, |(v.toInt : ℝ) / 32768 - y| ≤ 1 / 65536 ∧ (y = 0 → v.toInt = 0) := by
  obtain ⟨h1, h2⟩ := abs_le.1 hy
  have hr := abs_sub_round (y * 32768)
  obtain ⟨r1, r2⟩ := abs_le.1 hr
  have b1 : (-32768 : ℝ) < _root_.round (y * 32768) := by linarith
  have b2 : (_root_.round (y * 32768) : ℝ) < 32768 := by linarith
  have b1' : -32768 < _root_.round (y * 32768) := by exact_mod_cast b1
  have b2' : _root_.round (y * 32768) < 32768 := by exact_mod_cast b2
  have e : (BitVec.ofInt 16 (_root_.round (y * 32768))).toInt = _root_.round (y * 32768) := by
    rw [BitVec.toInt_ofInt]
    refine Int.bmod_eq_of_le ?_ ?_ <;> norm_num <;> omega
  refine ⟨BitVec.ofInt 16 (_root_.round (y * 32768)), ?_, fun h => ?_⟩
  · rw [e]
    have e2 : (_root_.round (y * 32768) : ℝ) / 32768 - y = -((y * 32768 - _root_.round (y * 32768)) / 32768) := by ring
    rw [e2, abs_neg, abs_div, abs_of_pos (by norm_num : (0 : ℝ) < 32768), div_le_iff₀ (by norm_num)]
    linarith
  · rw [e, h]
    simp

/-- The bytes of `n` blocks of samples. -/
def pieces (v : Nat → BitVec 16) (n : Nat) : List (List (BitVec 8)) :=
  (List.range n).map fun j => (List.range 102).map fun p => if p % 2 = 0 then (v (51 * j + p / 2)).setWidth 8 else (v (51 * j + p / 2) >>> 8).setWidth 8

theorem pieces_length (v : Nat → BitVec 16) (n : Nat) : (pieces v n).length = n := by simp [pieces]

theorem pieces_full (v : Nat → BitVec 16) (n : Nat) : ∀ b ∈ pieces v n, b.length = 102 := by
  intro b hb
  obtain ⟨j, -, rfl⟩ := List.mem_map.1 hb
  simp

theorem pieces_get (v : Nat → BitVec 16) (n q : Nat) (hq : q < 102 * n) :
    (pieces v n).flatten.getD q 0 = if q % 2 = 0 then (v (q / 2)).setWidth 8 else (v (q / 2) >>> 8).setWidth 8 := by
  have h := flatten_getD 102 (pieces v n) (pieces_full v n) (q / 102) (q % 102) (by omega)
  rw [show q / 102 * 102 + q % 102 = q by omega] at h
  rw [h, pieces, List.getD_eq_getElem?_getD, List.getD_eq_getElem?_getD, List.getElem?_map, List.getElem?_range (by omega), Option.map_some,
    Option.getD_some, List.getElem?_map, List.getElem?_range (by omega), Option.map_some, Option.getD_some]
  rw [show 51 * (q / 102) + q % 102 / 2 = q / 2 by omega, show q % 102 % 2 = q % 2 by omega]

theorem pieces_level (v : Nat → BitVec 16) (n k : Nat) (hk : k < 51 * n) : level (pieces v n).flatten k = ((v k).toInt : ℝ) / 32768 := by
  unfold level
  rw [pieces_get v n _ (by omega), pieces_get v n _ (by omega), if_neg (by omega), if_pos (by omega), show (2 * k + 1) / 2 = k by omega,
    show 2 * k / 2 = k by omega]
  have e : ((v k >>> 8).setWidth 8 ++ (v k).setWidth 8 : BitVec 16) = v k := by
    apply BitVec.eq_of_getLsbD_eq
    intro i hi
    simp only [BitVec.getLsbD_append, BitVec.getLsbD_setWidth, BitVec.getLsbD_ushiftRight]
    by_cases h : i < 8
    · simp [h]
    · simp only [h, decide_false, if_false]
      rw [show 8 + (i - 8) = i by omega]
      simp
      omega
  rw [e]

theorem apart_unique {ps : List Press} (h : ps.Pairwise fun p q => p.stop + 255 ≤ q.start) {p q : Press} (hp : p ∈ ps) (hq : q ∈ ps) {k : Nat}
    (h1 : p.start ≤ k ∧ k < p.stop) (h2 : q.start ≤ k ∧ k < q.stop) : p = q := by
  induction ps with
  | nil => cases hp
  | cons x xs ih =>
    rw [List.pairwise_cons] at h
    rcases List.mem_cons.1 hp with rfl | hp' <;> rcases List.mem_cons.1 hq with rfl | hq'
    · rfl
    · have := h.1 q hq'
      omega
    · have := h.1 p hp'
      omega
    · exact ih h.2 hp' hq'

/-- The hypotheses of `C140_dialled_partial` can be met: whatever presses are far enough apart and neither too weak nor too strong for 16 bits, there is a
file in which they are dialled. -/
theorem dialled_exists (n : Nat) (ps : List Press) (hok : ∀ p ∈ ps, p.Ok) (hwith : ∀ p ∈ ps, p.stop ≤ 51 * n)
    (hap : ps.Pairwise fun p q => p.stop + 255 ≤ q.start) (hweak : ∀ p ∈ ps, 30 / 65536 ≤ min p.A p.B) (hstrong : ∀ p ∈ ps, p.A + p.B ≤ 0.9999) :
    ∃ bs : List (List (BitVec 8)), bs.length = n ∧ (∀ b ∈ bs, b.length = 102) ∧ Dialled (level bs.flatten) (51 * n) ps := by
  have hs : ∀ k : Nat, ∃ y : ℝ, |y| ≤ 0.9999 ∧ (∀ p ∈ ps, p.start ≤ k ∧ k < p.stop → y = p.wave k) ∧
      ((∀ p ∈ ps, ¬ (p.start ≤ k ∧ k < p.stop)) → y = 0) := by
    intro k
    by_cases h : ∃ p ∈ ps, p.start ≤ k ∧ k < p.stop
    · obtain ⟨p, hp, hk⟩ := h
      refine ⟨p.wave k, ?_, fun q hq hkq => by rw [apart_unique hap hp hq hk hkq], fun hh => absurd hk (hh p hp)⟩
      have hA : 0 < p.A := lt_of_lt_of_le (by norm_num) (hok p hp).weakA
      have hB : 0 < p.B := lt_of_lt_of_le (by norm_num) (hok p hp).weakB
      have a1 := Real.abs_cos_le_one (2 * π * p.f * k / 8000 + p.φ)
      have a2 := Real.abs_cos_le_one (2 * π * p.g * k / 8000 + p.ψ)
      refine le_trans ?_ (hstrong p hp)
      unfold Press.wave
      refine (abs_add_le _ _).trans ?_
      rw [abs_mul, abs_mul, abs_of_pos hA, abs_of_pos hB]
      nlinarith
    · exact ⟨0, by norm_num, fun p hp hk => absurd ⟨p, hp, hk⟩ h, fun _ => rfl⟩
  choose y y1 y2 y3 using hs
  choose v v1 v2 using fun k => exists_word (y k) (y1 k)
  refine ⟨pieces v n, pieces_length v n, pieces_full v n, hok, hwith, hap, fun p hp k k1 k2 => ?_, fun k hk hh => ?_⟩
  · rw [pieces_level v n k (lt_of_lt_of_le k2 (hwith p hp)), ← y2 k p hp ⟨k1, k2⟩]
    exact (v1 k).trans (by linarith [hweak p hp])
  · rw [pieces_level v n k hk, v2 k (y3 k hh)]
    simp

/-- The keys 5, 5 and # in four tenths of a second, any phases, off by about two hertz: there is a platform, and a file of 75 blocks, and the program
prints `55#`. -/
example (other : Val → Nat) (φ ψ : ℝ) : ∃ (cos sin : FVal binary64 → FVal binary64) (d : DTMF (FVal binary64) (FVal binary32))
    (bs : List (List (BitVec 8))) (l : Loop (FVal binary64) (FVal binary32)), NewStandardFp other cos sin 8000 205 d ∧ bs.length = 75 ∧
    fileLoop widen narrow conv16 (fun _ => 0) ⟨d, fun _ => 0, Keys.start⟩ (bs.map Got.data ++ [.eof]) = some (.newline l) ∧
    l.keys.out = ['5', '5', '#'] := by
  choose co c1 c2 c3 using fun x : FVal binary64 => exists_float (Real.cos (val x)) (Real.abs_cos_le_one _)
  choose si s1 _ s3 using fun x : FVal binary64 => exists_float (Real.sin (val x)) (Real.abs_sin_le_one _)
  have hT : Trig co si 21 (1 / 2 ^ 50) := fun x _ _ => ⟨⟨c1 x, c2 x, c3 x⟩, s1 x, s3 x⟩
  obtain ⟨d, hd⟩ := standard_exists other co si 8000 205
  have ok1 : ∀ a b, a + 714 ≤ b → Press.Ok ⟨'5', a, b, 768.5, 1338, 0.3, 0.2, φ, ψ⟩ := fun a b hab =>
    ⟨⟨770, 1336, rfl, by norm_num [abs_le], by norm_num [abs_le]⟩, by norm_num, by norm_num, by norm_num, by norm_num, by norm_num, hab⟩
  have ok2 : Press.Ok ⟨'#', 3000, 3800, 942, 1475, 0.01, 0.013, ψ, φ⟩ :=
    ⟨⟨941, 1477, rfl, by norm_num [abs_le], by norm_num [abs_le]⟩, by norm_num, by norm_num, by norm_num, by norm_num, by norm_num, by norm_num⟩
  obtain ⟨bs, b1, b2, b3⟩ := dialled_exists 75 [⟨'5', 7, 727, 768.5, 1338, 0.3, 0.2, φ, ψ⟩, ⟨'5', 1000, 1714, 768.5, 1338, 0.3, 0.2, φ, ψ⟩,
      ⟨'#', 3000, 3800, 942, 1475, 0.01, 0.013, ψ, φ⟩]
    (by
      intro p hp
      simp only [List.mem_cons, List.not_mem_nil, or_false] at hp
      rcases hp with rfl | rfl | rfl
      · exact ok1 _ _ (by norm_num)
      · exact ok1 _ _ (by norm_num)
      · exact ok2)
    (by simp) (by simp) (by norm_num) (by norm_num)
  obtain ⟨l, l1, l2⟩ := C140_unfused other co si d hd bs
  rw [← b1] at b3
  obtain ⟨k, k1, k2⟩ := C140_dialled_partial other co si (1 / 2 ^ 50) (by norm_num) le_rfl hT d hd bs b2 _ b3 _ l2
  refine ⟨co, si, d, bs, l, hd, b1, l1, ?_⟩
  rw [EndedFp.newline.injEq] at k1
  rw [k1, k2]
  rfl

end Verif.Dtmf
