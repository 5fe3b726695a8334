import Verif.Ax25.EarBlock
import Verif.Ax25.ClockFpProps

/-!
# What the blocks show, and when
-/

namespace Verif.Ax25.Ear

open Verif.Ax25 Verif.Fp Verif.Ax25.Clock64.Spec Ball

/-! ### One block -/

theorem tone_true {d : Val} {D : ℝ} (hd : Fp.Finite d) (h : |(d.toRat : ℝ) - D| ≤ 0.01) (hD : 50.01 < D) : Tone d true := by
  rw [abs_le] at h
  have h1 : (50 : ℝ) < d.toRat := by linarith
  have h2 : (50 : ℚ) < d.toRat := by exact_mod_cast h1
  exact Or.inr ⟨hd, lt_of_lt_of_le h2 (le_abs_self _), by simp only [true_iff]; linarith⟩

theorem tone_false {d : Val} {D : ℝ} (hd : Fp.Finite d) (h : |(d.toRat : ℝ) - D| ≤ 0.01) (hD : D < -50.01) : Tone d false := by
  rw [abs_le] at h
  have h1 : (d.toRat : ℝ) < -50 := by linarith
  have h2 : d.toRat < -50 := by exact_mod_cast h1
  refine Or.inr ⟨hd, lt_of_lt_of_le (by linarith : (50 : ℚ) < -d.toRat) (neg_le_abs _), ?_⟩
  constructor
  · intro h; cases h
  · intro h; linarith

theorem any_tone {d : Val} (hd : Fp.Finite d) : Quiet d ∨ Tone d true ∨ Tone d false := by
  rcases le_or_gt |d.toRat| 50 with h | h
  · exact Or.inl (Or.inr ⟨hd, h⟩)
  · rcases le_or_gt 0 d.toRat with h0 | h0
    · exact Or.inr (Or.inl (Or.inr ⟨hd, h, by simpa using h0⟩))
    · exact Or.inr (Or.inr (Or.inr ⟨hd, h, by simpa using h0⟩))

theorem not_tone_true {d : Val} {D : ℝ} (hd : Fp.Finite d) (h : |(d.toRat : ℝ) - D| ≤ 0.01) (hD : D ≤ 49.99) : Quiet d ∨ Tone d false := by
  rcases any_tone hd with c | c | c
  · exact Or.inl c
  · exfalso
    rw [abs_le] at h
    have h1 : (d.toRat : ℝ) ≤ 50 := by linarith
    have h2 : d.toRat ≤ 50 := by exact_mod_cast h1
    rcases c with rfl | ⟨_, c1, c2⟩
    · obtain ⟨s, q, e, _⟩ := hd
      cases e
    · rw [abs_of_nonneg (c2.1 rfl)] at c1
      linarith
  · exact Or.inr c

theorem not_tone_false {d : Val} {D : ℝ} (hd : Fp.Finite d) (h : |(d.toRat : ℝ) - D| ≤ 0.01) (hD : -49.99 ≤ D) : Quiet d ∨ Tone d true := by
  rcases any_tone hd with c | c | c
  · exact Or.inl c
  · exact Or.inr c
  · exfalso
    rw [abs_le] at h
    have h1 : (-50 : ℝ) ≤ d.toRat := by linarith
    have h2 : -50 ≤ d.toRat := by exact_mod_cast h1
    rcases c with rfl | ⟨_, c1, c2⟩
    · obtain ⟨s, q, e, _⟩ := hd
      cases e
    · have h3 : d.toRat < 0 := by
        by_contra h3
        have := c2.2 (not_lt.1 h3)
        cases this
      rw [abs_of_neg h3] at c1
      linarith

theorem tone_excludes {d : Val} {b : Bool} (hd : Fp.Finite d) (h : Quiet d ∨ Tone d (!b)) : ¬ Tone d b := by
  intro c
  rcases c with rfl | ⟨_, c1, c2⟩
  · obtain ⟨s, q, e, _⟩ := hd
    cases e
  · rcases h with (rfl | ⟨_, h⟩) | (rfl | ⟨_, h1, h2⟩)
    · obtain ⟨s, q, e, _⟩ := hd
      cases e
    · linarith
    · obtain ⟨s, q, e, _⟩ := hd
      cases e
    · cases b <;> simp at c2 h2 <;> linarith

/-- The tones, in units per sample. -/
def pitch (b : Bool) : ℝ := if b then 192 else 352

/-- The block has the tone `a` and then, for its last `q` samples, the tone `b`. -/
def Mixed (A : ℝ) (a b : Bool) (q : ℕ) (x : ℕ → ℝ) : Prop :=
  ∃ α τ : ℝ, 0 ≤ τ ∧ τ < 1 ∧ ∀ i < 36, |x i - A * ideal (pitch a) (pitch b) α ((pitch b - pitch a) * τ) (36 - q) i| ≤ 1 / 300

/-- From which number of samples on the new tone is looked for. -/
noncomputable def wait (A : ℝ) : ℕ := if 0.9654 ≤ A then 13 else 14

theorem wait_cases (A : ℝ) : wait A = 13 ∧ 0.9654 ≤ A ∨ wait A = 14 ∧ A < 0.9654 := by
  unfold wait
  split
  · exact Or.inl ⟨rfl, ‹_›⟩
  · exact Or.inr ⟨rfl, not_le.1 ‹_›⟩

/-- What a block shows. -/
structure Facts (j : ℕ) (a b : Bool) (q : ℕ) (d : Val) : Prop where
  fin : Fp.Finite d
  same : a = b → Tone d a
  early : a ≠ b → q < j → Quiet d ∨ Tone d a
  late : a ≠ b → j + 14 ≤ q → Tone d b
  seen : a ≠ b → Tone d b → (if a then 20 else 13) ≤ q
  stays : a ≠ b → (if a then 24 else 17) ≤ q → Quiet d ∨ Tone d b

theorem slack_le {A C : ℝ} (hA : 0 ≤ A) (hC : A ≤ C) : slack A (1 / 300 + 0.0009 * A) ≤ 25.5 * (1 / 300 + 0.0009 * C) * (38.3 * C + 25.5 * (1 / 300 + 0.0009 * C)) := by
  unfold slack
  have hC0 := hA.trans hC
  gcongr

theorem facts_of {A : ℝ} (h1 : 0.81 ≤ A) (h2 : A ≤ 1) {a b : Bool} {q : ℕ} (hq : q ≤ 36) {x : ℕ → ℝ} (hx : Mixed A a b q x) {d : Val}
    (hd : Fp.Finite d) (he : |(d.toRat : ℝ) - (power 1 x - power 2 x)| ≤ 0.01) : Facts (wait A) a b q d := by
  obtain ⟨α, τ, t0, t1, hx⟩ := hx
  have hA : 0 ≤ A := by linarith
  have s1 : slack A (1 / 300 + 0.0009 * A) ≤ 4.15 := (slack_le hA h2).trans (by norm_num)
  have A2 : A ^ 2 ≤ 1 := by nlinarith
  have A3 : 0.6561 ≤ A ^ 2 := by nlinarith
  have flat : a = b → Tone d a := by
    rintro rfl
    cases a with
    | true =>
      obtain ⟨l, -⟩ := block_up (x := x) (α := α + 192 * Ball.unit * ((36 : ℕ) - (36 - q : ℕ) : ℝ)) (τ := 0) (m := 36) hA (by norm_num : (0 : ℝ) ≤ 1 / 300) le_rfl one_pos le_rfl fun i hi => by
        have := hx i hi
        have e : ideal (pitch true) (pitch true) α ((pitch true - pitch true) * τ) (36 - q) i
            = ideal 192 352 (α + 192 * Ball.unit * ((36 : ℕ) - (36 - q : ℕ) : ℝ)) (160 * 0) 36 i := by
          unfold ideal
          rw [if_pos hi]
          have e2 : pitch true = 192 := rfl
          rw [e2]
          split <;> congr 1 <;> ring
        rwa [e] at this
      have e : (loUp 36 : ℝ) = 31600 := by norm_num [loUp]
      rw [e] at l
      exact tone_true hd he (by nlinarith)
    | false =>
      obtain ⟨-, l⟩ := block_down (x := x) (α := α + 352 * Ball.unit * ((36 : ℕ) - (36 - q : ℕ) : ℝ)) (τ := 0) (m := 36) hA (by norm_num : (0 : ℝ) ≤ 1 / 300) le_rfl one_pos le_rfl fun i hi => by
        have := hx i hi
        have e : ideal (pitch false) (pitch false) α ((pitch false - pitch false) * τ) (36 - q) i
            = ideal 352 192 (α + 352 * Ball.unit * ((36 : ℕ) - (36 - q : ℕ) : ℝ)) (-(160 * 0)) 36 i := by
          unfold ideal
          rw [if_pos hi]
          have e2 : pitch false = 352 := rfl
          rw [e2]
          split <;> congr 1 <;> ring
        rwa [e] at this
      have e : (hiDown 36 : ℝ) = -22100 := by norm_num [hiDown]
      rw [e] at l
      exact tone_false hd he (by nlinarith)
  suffices rest : (a ≠ b → q < wait A → Quiet d ∨ Tone d a) ∧ (a ≠ b → wait A + 14 ≤ q → Tone d b) ∧
      (a ≠ b → Tone d b → (if a then 20 else 13) ≤ q) ∧ (a ≠ b → (if a then 24 else 17) ≤ q → Quiet d ∨ Tone d b) from
    ⟨hd, flat, rest.1, rest.2.1, rest.2.2.1, rest.2.2.2⟩
  clear flat
  cases a <;> cases b
  · exact ⟨fun h => absurd rfl h, fun h => absurd rfl h, fun h => absurd rfl h, fun h => absurd rfl h⟩
  · -- down
    obtain ⟨l, u⟩ := block_down (x := x) (α := α) (τ := τ) (m := 36 - q) hA (by norm_num : (0 : ℝ) ≤ 1 / 300) t0 t1 (by omega) fun i hi => by
      have := hx i hi
      have e : (pitch true - pitch false) * τ = -(160 * τ) := by norm_num [pitch]
      rwa [e] at this
    have early : q < wait A → Quiet d ∨ Tone d false := by
      intro hq
      refine not_tone_true hd he (u.trans ?_)
      rcases wait_cases A with ⟨w, hw⟩ | ⟨w, hw⟩
      · have e : (hiDown (36 - q) : ℝ) ≤ 2060 := by
          have : hiDown (36 - q) ≤ 2060 := by unfold hiDown; split_ifs <;> omega
          exact_mod_cast this
        have := mul_le_mul_of_nonneg_left (by linarith : (hiDown (36 - q) / 100 : ℝ) ≤ 20.6) (sq_nonneg A)
        linarith
      · have e : (hiDown (36 - q) : ℝ) ≤ 4880 := by
          have : hiDown (36 - q) ≤ 4880 := by unfold hiDown; split_ifs <;> omega
          exact_mod_cast this
        have := mul_le_mul_of_nonneg_left (by linarith : (hiDown (36 - q) / 100 : ℝ) ≤ 48.8) (sq_nonneg A)
        have s2 := slack_le hA hw.le
        have A4 : A ^ 2 ≤ 0.9654 ^ 2 := pow_le_pow_left₀ hA hw.le 2
        norm_num at s2 A4 this ⊢
        linarith
    have seen : Tone d true → 13 ≤ q := by
      intro h
      by_contra hc
      refine tone_excludes (b := true) hd ?_ h
      refine early ?_
      rcases wait_cases A with ⟨w, _⟩ | ⟨w, _⟩ <;> omega
    refine ⟨fun _ => early, fun _ hq => ?_, fun _ => seen, fun _ hq => ?_⟩
    · refine tone_true hd he (lt_of_lt_of_le ?_ l)
      have e : (21900 : ℝ) ≤ loDown (36 - q) := by
        have : 21900 ≤ loDown (36 - q) := by
          unfold loDown
          rcases wait_cases A with ⟨w, _⟩ | ⟨w, _⟩ <;> split_ifs <;> omega
        exact_mod_cast this
      have := mul_le_mul_of_nonneg_left (by linarith : (219 : ℝ) ≤ loDown (36 - q) / 100) (sq_nonneg A)
      linarith
    · refine not_tone_false hd he (le_trans ?_ l)
      have e : (-3480 : ℝ) ≤ loDown (36 - q) := by
        have : -3480 ≤ loDown (36 - q) := by
          have hq : 17 ≤ q := hq
          unfold loDown
          split_ifs <;> omega
        exact_mod_cast this
      have := mul_le_mul_of_nonneg_left (by linarith : (-34.8 : ℝ) ≤ loDown (36 - q) / 100) (sq_nonneg A)
      linarith
  · -- up
    obtain ⟨l, u⟩ := block_up (x := x) (α := α) (τ := τ) (m := 36 - q) hA (by norm_num : (0 : ℝ) ≤ 1 / 300) t0 t1 (by omega) fun i hi => by
      have := hx i hi
      have e : (pitch false - pitch true) * τ = 160 * τ := by norm_num [pitch]
      rwa [e] at this
    have early : q < 20 → Quiet d ∨ Tone d true := by
      intro hq
      refine not_tone_false hd he (le_trans ?_ l)
      have e : (-3480 : ℝ) ≤ loUp (36 - q) := by
        have : -3480 ≤ loUp (36 - q) := by unfold loUp; split_ifs <;> omega
        exact_mod_cast this
      have := mul_le_mul_of_nonneg_left (by linarith : (-34.8 : ℝ) ≤ loUp (36 - q) / 100) (sq_nonneg A)
      linarith
    have seen : Tone d false → 20 ≤ q := by
      intro h
      by_contra hc
      exact tone_excludes (b := false) hd (early (by omega)) h
    refine ⟨fun _ hq => early ?_, fun _ hq => ?_, fun _ => seen, fun _ hq => ?_⟩
    · rcases wait_cases A with ⟨w, _⟩ | ⟨w, _⟩ <;> omega
    · refine tone_false hd he (lt_of_le_of_lt u ?_)
      rcases wait_cases A with ⟨w, hw⟩ | ⟨w, hw⟩
      · have e : (hiUp (36 - q) : ℝ) ≤ -5850 := by
          have : hiUp (36 - q) ≤ -5850 := by unfold hiUp; split_ifs <;> omega
          exact_mod_cast this
        have := mul_le_mul_of_nonneg_left (by linarith : (hiUp (36 - q) / 100 : ℝ) ≤ -58.5) (sq_nonneg A)
        have A4 : 0.9654 ^ 2 ≤ A ^ 2 := pow_le_pow_left₀ (by norm_num) hw 2
        norm_num at A4 this s1 ⊢
        linarith
      · have e : (hiUp (36 - q) : ℝ) ≤ -8290 := by
          have : hiUp (36 - q) ≤ -8290 := by unfold hiUp; split_ifs <;> omega
          exact_mod_cast this
        have := mul_le_mul_of_nonneg_left (by linarith : (hiUp (36 - q) / 100 : ℝ) ≤ -82.9) (sq_nonneg A)
        have s2 := slack_le hA hw.le
        norm_num at s2 this A3 ⊢
        linarith
    · refine not_tone_true hd he (le_trans u ?_)
      have e : (hiUp (36 - q) : ℝ) ≤ 2060 := by
        have : hiUp (36 - q) ≤ 2060 := by
          have hq : 24 ≤ q := hq
          unfold hiUp
          split_ifs <;> omega
        exact_mod_cast this
      have := mul_le_mul_of_nonneg_left (by linarith : (hiUp (36 - q) / 100 : ℝ) ≤ 20.6) (sq_nonneg A)
      linarith
  · exact ⟨fun h => absurd rfl h, fun h => absurd rfl h, fun h => absurd rfl h, fun h => absurd rfl h⟩

/-! ### All blocks -/

theorem tone_other {d : Val} {a b : Bool} (hd : Fp.Finite d) (hab : a ≠ b) (h : ¬ Tone d b) : Quiet d ∨ Tone d a := by
  rcases any_tone hd with c | c | c
  · exact Or.inl c
  · cases a <;> cases b <;> simp_all
  · cases a <;> cases b <;> simp_all

/-- The windows at which the bits begin. -/
theorem bits_seen {f : ℕ → Val} {v : ℕ → Bool} {j L : ℕ} {c p : ℝ} (hj : j = 13 ∨ j = 14) (hc : 0 ≤ c) (hp1 : 36.7 ≤ p) (hp2 : p ≤ 36.8)
    (H : ∀ i ≤ L, ∀ n : ℕ, 0 ≤ 4 * (n : ℝ) + 4 - (c + i * p) → 4 * (n : ℝ) + 4 - (c + i * p) < 37 →
      Facts j (v i) (v (i + 1)) ⌊4 * (n : ℝ) + 4 - (c + i * p)⌋₊ (f n)) :
    ∃ B : ℕ → ℕ, (∀ i ≤ L, c + i * p + j - 4 ≤ 4 * B i ∧ 4 * (B i : ℝ) < c + i * p + j + 14) ∧ ∀ i < L, Sends f B v i := by
  have hjr : (13 : ℝ) ≤ j ∧ (j : ℝ) ≤ 14 := by rcases hj with rfl | rfl <;> norm_num
  -- one bit
  have one : ∀ i, ∃ B N : ℕ, i ≤ L → N ≤ B ∧ c + i * p + j - 4 ≤ 4 * (N : ℝ) ∧ 4 * (N : ℝ) < c + i * p + j ∧ 4 * (B : ℝ) < c + i * p + j + 14 ∧
      (v i ≠ v (i + 1) → Tone (f B) (v (i + 1)) ∧ ∀ n, N ≤ n → n < B → ¬ Tone (f n) (v (i + 1))) := by
    intro i
    by_cases hi : i ≤ L
    swap
    · exact ⟨0, 0, fun h => absurd h hi⟩
    have hb0 : 0 ≤ c + i * p := by positivity
    set b := c + i * p with hb
    have n1 := Nat.le_ceil ((b + j - 4) / 4)
    have n2 := Nat.ceil_lt_add_one (by linarith : 0 ≤ (b + j - 4) / 4)
    set N := ⌈(b + j - 4) / 4⌉₊ with hN
    have n1' : b + j - 4 ≤ 4 * (N : ℝ) := by linarith
    have n2' : 4 * (N : ℝ) < b + j := by linarith
    by_cases hv : v i = v (i + 1)
    · exact ⟨N, N, fun _ => ⟨le_rfl, n1', n2', by linarith, fun h => absurd hv h⟩⟩
    have shows : ∀ n : ℕ, N ≤ n → 4 * (n : ℝ) + 4 - b < 37 → (j + 14 : ℝ) ≤ 4 * (n : ℝ) + 4 - b → Tone (f n) (v (i + 1)) := by
      intro n _ h1 h2
      refine (H i hi n (by linarith) h1).late hv (Nat.le_floor ?_)
      push_cast
      exact h2
    have ex : ∃ n, N ≤ n ∧ Tone (f n) (v (i + 1)) :=
      ⟨N + 4, by omega, shows (N + 4) (by omega) (by push_cast; linarith) (by push_cast; linarith)⟩
    classical
    set B := Nat.find ex with hB
    obtain ⟨b1, b2⟩ := Nat.find_spec ex
    have b3 : ∀ n, N ≤ n → n < B → ¬ Tone (f n) (v (i + 1)) := fun n h1 h2 h3 => Nat.find_min ex h2 ⟨h1, h3⟩
    refine ⟨B, N, fun _ => ⟨b1, n1', n2', ?_, fun _ => ⟨b2, b3⟩⟩⟩
    by_contra hcon
    have hcon := not_lt.1 hcon
    have hB4 : B ≤ N + 4 := Nat.find_min' ex ⟨by omega, shows (N + 4) (by omega) (by push_cast; linarith) (by push_cast; linarith)⟩
    have hB4' : (B : ℝ) ≤ N + 4 := by exact_mod_cast hB4
    have hNB : N < B := by
      have : (N : ℝ) < B := by linarith
      exact_mod_cast this
    have hcast : ((B - 1 : ℕ) : ℝ) = B - 1 := by rw [Nat.cast_sub (by omega)]; norm_num
    exact b3 (B - 1) (by omega) (by omega) (shows (B - 1) (by omega) (by rw [hcast]; linarith) (by rw [hcast]; linarith))
  choose B N hBN using one
  refine ⟨B, fun i hi => ?_, fun i hi => ?_⟩
  · obtain ⟨a1, a2, a3, a4, a5⟩ := hBN i hi
    have : (N i : ℝ) ≤ B i := by exact_mod_cast a1
    exact ⟨by linarith, a4⟩
  obtain ⟨a1, a2, a3, a4, a5⟩ := hBN i hi.le
  obtain ⟨c1, c2, c3, c4, c5⟩ := hBN (i + 1) hi
  have a1' : (N i : ℝ) ≤ B i := by exact_mod_cast a1
  have c1' : (N (i + 1) : ℝ) ≤ B (i + 1) := by exact_mod_cast c1
  push_cast at c2 c3 c4
  refine ⟨?_, fun h => (a5 (Ne.symm h)).1, ?_⟩
  · have : (B i : ℝ) < B (i + 1) := by linarith
    exact_mod_cast this
  intro n hn1 hn2
  have hn1' : (B i : ℝ) ≤ n := by exact_mod_cast hn1
  have hn2' : (n : ℝ) + 1 ≤ B (i + 1) := by exact_mod_cast hn2
  rcases lt_or_ge (4 * (n : ℝ) + 4 - (c + i * p)) 37 with hu | hu
  · have F := H i hi.le n (by linarith) hu
    by_cases hv : v i = v (i + 1)
    · exact Or.inr (hv ▸ F.same hv)
    rcases Nat.eq_or_lt_of_le hn1 with rfl | hlt
    · exact Or.inr (a5 hv).1
    · have F0 := H i hi.le (B i) (by linarith) (by
        have : (B i : ℝ) < n := by exact_mod_cast hlt
        linarith)
      refine F.stays hv ?_
      have s := F0.seen hv (a5 hv).1
      have hle : (B i : ℝ) + 1 ≤ n := by exact_mod_cast hlt
      have hfl : ⌊4 * (B i : ℝ) + 4 - (c + i * p)⌋₊ + 4 ≤ ⌊4 * (n : ℝ) + 4 - (c + i * p)⌋₊ := by
        refine Nat.le_floor ?_
        have := Nat.floor_le (by linarith : 0 ≤ 4 * (B i : ℝ) + 4 - (c + i * p))
        push_cast
        linarith
      split at s <;> rename_i ha <;> simp only [ha] <;> simp <;> omega
  · have F := H (i + 1) hi n (by push_cast; linarith) (by push_cast; linarith)
    by_cases hv : v (i + 1) = v (i + 1 + 1)
    · exact Or.inr (F.same hv)
    rcases lt_or_ge n (N (i + 1)) with hN | hN
    · refine F.early hv ?_
      have hN' : (n : ℝ) + 1 ≤ N (i + 1) := by exact_mod_cast hN
      rw [Nat.floor_lt (by push_cast; linarith)]
      push_cast
      linarith
    · exact tone_other F.fin hv ((c5 hv).2 n hN hn2)

end Verif.Ax25.Ear
