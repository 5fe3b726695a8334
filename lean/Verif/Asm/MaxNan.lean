import Verif.Asm.MaxClosed

/-!
# Property C26 with not-a-numbers anywhere

Which elements the amd64 maximum and minimum take into account, exactly.
-/

namespace Verif.Asm
open Verif.Fp Verif.Asm.Closed

variable {F K : Type}

/-! ## Specification -/

/-- The places of the last block which are looked at after place `p` when the accumulators are joined: `w` lanes per register; the later
registers of the same lane, then for eight lanes the fourth lane on, then the lanes 2 and 3 (6 and 7). -/
def after (w p : Nat) : List Nat :=
  (if p < w then [p % w + w] else []) ++ (if p < 2 * w then [p % w + 2 * w] else []) ++ (if p < 3 * w then [p % w + 3 * w] else []) ++
    (if p % w + 4 < w then [p % w + 4 + 3 * w] else []) ++ (if p % 4 = 0 then [4 * w - 2] else []) ++ (if p % 4 ≠ 3 then [4 * w - 1] else [])

/-- The block of elements of the vector loop: 4·8 with AVX2, otherwise 4·4. -/
def lanes (useAVX2 : Bool) : Nat := if useAVX2 then 8 else 4

/-- Element `i` counts: it lies behind the vector part, or it is a number, all elements after it in its lane are numbers and so are those
elements of the last block which its lane meets on the way to the result. `v` is the length of the vector part. -/
def Counts (good : F → Prop) (im : Nat → F) (w v i : Nat) : Prop :=
  v ≤ i ∨ good (im i) ∧ (∀ u, i < u → u < v → u % (4 * w) = i % (4 * w) → good (im u)) ∧ ∀ p ∈ after w (i % (4 * w)), good (im (v - 4 * w + p))

/-! ## Lanes -/

variable [LinearOrder K] {good : F → Prop} {key' : F → K} {gt : F → F → Bool} {init : F} {im : Nat → F}

/-- A value that is a number exactly if `P`, and then the extreme of the elements in `S`; if not, it is `z` and `S` is empty. -/
structure Node (good : F → Prop) (key' : F → K) (init : F) (im : Nat → F) (P : Prop) (S : Nat → Prop) (z x : F) : Prop where
  isGood : good x ↔ P
  empty : ¬ P → ∀ i, ¬ S i
  ext : P → IsExt good key' init im S x
  bad : ¬ P → x = z

theorem Node.congr {P Q : Prop} {S T : Nat → Prop} {x z : F} (h : Node good key' init im P S z x) (hp : P ↔ Q) (hs : ∀ i, S i ↔ T i) :
    Node good key' init im Q T z x :=
  ⟨h.isGood.trans hp, fun q i hi => h.empty (fun p => q (hp.1 p)) i ((hs i).2 hi), fun q => (h.ext (hp.2 q)).congr hs, fun q => h.bad fun p => q (hp.1 p)⟩

/-- Two values joined: a right one that is not a number hides everything on the left. -/
theorem Node.max (hgt : ∀ a b, gt a b = true ↔ good a ∧ good b ∧ key' b < key' a) {P Q : Prop} {S T : Nat → Prop} {x y z t : F}
    (hx : Node good key' init im P S z x) (hy : Node good key' init im Q T t y) :
    Node good key' init im Q (fun i => Q ∧ S i ∨ T i) t (maxps gt x y) := by
  by_cases q : Q
  · by_cases p : P
    · have h := (hx.ext p).max hgt (hy.ext q)
      exact ⟨⟨fun _ => q, fun _ => h.isGood⟩, fun n => (n q).elim, fun _ => h.congr fun i => by simp [q], fun n => (n q).elim⟩
    · have e : maxps gt x y = y := by
        rw [maxps, if_neg]
        intro c
        exact p (hx.isGood.1 ((hgt _ _).1 c).1)
      rw [e]
      exact ⟨hy.isGood, fun n => (n q).elim, fun q => (hy.ext q).congr fun i => by simp [hx.empty p i], hy.bad⟩
  · have e : maxps gt x y = y := by
      rw [maxps, if_neg]
      intro c
      exact q (hy.isGood.1 ((hgt _ _).1 c).2.1)
    rw [e]
    exact ⟨hy.isGood, fun _ i hi => hi.elim (fun h => q h.1) (hy.empty q i), fun q' => (q q').elim, hy.bad⟩

/-- One element. -/
theorem Node.single (hinit : ∀ x, good x → key' init ≤ key' x) (j : Nat) :
    Node good key' init im (good (im j)) (fun i => i = j ∧ good (im i)) (im j) (im j) :=
  ⟨Iff.rfl, fun h i hi => h (hi.1 ▸ hi.2), fun h => ⟨h, hinit _ h, fun i hi _ => by rw [hi.1], Or.inr ⟨j, ⟨rfl, h⟩, rfl⟩⟩, fun _ => rfl⟩

/-- Place `p` of the blocks after `j + 1` of them. -/
theorem lane_node (hgt : ∀ a b, gt a b = true ↔ good a ∧ good b ∧ key' b < key' a) (hi : good init)
    (hinit : ∀ x, good x → key' init ≤ key' x) (w : Nat) {r l : Nat} (hp : w * r + l < 4 * w) (j : Nat) :
    Node good key' init im (good (im (4 * w * j + (w * r + l))))
      (fun i => i < 4 * w * (j + 1) ∧ i % (4 * w) = w * r + l ∧ good (im i) ∧ ∀ u, i < u → u < 4 * w * (j + 1) → u % (4 * w) = w * r + l → good (im u))
      (im (4 * w * j + (w * r + l))) (acc (maxps gt) init im w (j + 1) r l) := by
  generalize hP : w * r + l = p at hp
  have uniq : ∀ j i, 4 * w * j ≤ i → i < 4 * w * (j + 1) → i % (4 * w) = p → i = 4 * w * j + p := by
    intro j i h1 h2 h3
    obtain ⟨d, rfl⟩ := Nat.exists_eq_add_of_le h1
    rw [Nat.mul_succ] at h2
    rw [Nat.mul_add_mod, Nat.mod_eq_of_lt (by omega)] at h3
    omega
  have pm : ∀ j, (4 * w * j + p) % (4 * w) = p := by
    intro j
    rw [Nat.mul_add_mod, Nat.mod_eq_of_lt hp]
  have lt : ∀ j, 4 * w * j + p < 4 * w * (j + 1) := by
    intro j
    rw [Nat.mul_succ]
    omega
  induction j with
  | zero =>
    have h0 : Node good key' init im True (fun _ => False) init init :=
      ⟨⟨fun _ => trivial, fun _ => hi⟩, fun h => (h trivial).elim, fun _ => IsExt.base hi, fun _ => rfl⟩
    have := h0.max hgt (Node.single (im := im) hinit (4 * w * 0 + p))
    simp only [acc, hP]
    refine this.congr Iff.rfl fun i => ?_
    constructor
    · rintro (⟨-, h⟩ | ⟨rfl, h⟩)
      · exact h.elim
      · refine ⟨lt 0, pm 0, h, fun u h1 h2 h3 => ?_⟩
        have := uniq 0 u (by omega) h2 h3
        omega
    · rintro ⟨h1, h2, h3, -⟩
      exact Or.inr ⟨uniq 0 i (by omega) h1 h2, h3⟩
  | succ j ih =>
    have := ih.max hgt (Node.single (im := im) hinit (4 * w * (j + 1) + p))
    simp only [acc, hP] at this ⊢
    refine this.congr Iff.rfl fun i => ?_
    constructor
    · rintro (⟨hg, h1, h2, h3, h4⟩ | ⟨rfl, h⟩)
      · refine ⟨h1.trans_le (Nat.mul_le_mul_left _ (by omega)), h2, h3, fun u a b c => ?_⟩
        by_cases q : u < 4 * w * (j + 1)
        · exact h4 u a q c
        · rw [uniq (j + 1) u (by omega) b c]
          exact hg
      · refine ⟨lt _, pm _, h, fun u h1 h2 h3 => ?_⟩
        have := uniq (j + 1) u (by omega) h2 h3
        omega
    · rintro ⟨h1, h2, h3, h4⟩
      by_cases q : i < 4 * w * (j + 1)
      · refine Or.inl ⟨h4 _ (by omega) (lt _) (pm _), q, h2, h3, fun u a b c => h4 u a (b.trans_le (Nat.mul_le_mul_left _ (by omega))) c⟩
      · exact Or.inr ⟨uniq (j + 1) i (by omega) h1 h2, h3⟩

/-- The rest, one by one. -/
theorem steps_ext (hgt : ∀ a b, gt a b = true ↔ good a ∧ good b ∧ key' b < key' a) {S : Nat → Prop} {x : F} (hx : IsExt good key' init im S x) (c t : Nat) :
    IsExt good key' init im (fun i => S i ∨ c ≤ i ∧ i < c + t) (steps (fun x y => if gt y x then y else x) im x c t) := by
  induction t with
  | zero => exact hx.congr fun i => ⟨Or.inl, fun h => h.elim id fun h => by omega⟩
  | succ t ih =>
    refine (ih.step hgt (j := c + t)).congr fun i => ?_
    constructor
    · rintro ((h | h) | h)
      · exact Or.inl h
      · exact Or.inr (by omega)
      · exact Or.inr (by omega)
    · rintro (h | h)
      · exact Or.inl (Or.inl h)
      · by_cases q : i = c + t
        · exact Or.inr q
        · exact Or.inl (Or.inr (by omega))

theorem steps_bad (hgt : ∀ a b, gt a b = true ↔ good a ∧ good b ∧ key' b < key' a) {x : F} (hx : ¬ good x) (c t : Nat) :
    steps (fun x y => if gt y x then y else x) im x c t = x := by
  induction t with
  | zero => rfl
  | succ t ih =>
    rw [steps, ih, if_neg]
    intro h
    exact hx ((hgt _ _).1 h).2.1

/-- The set of lane `p`, and what counts, in the same words. -/
theorem counts_iff (w j i p : Nat) (hv : i < 4 * w * (j + 1)) (hm : i % (4 * w) = p) :
    Counts good im w (4 * w * (j + 1)) i ↔ (good (im i) ∧ ∀ u, i < u → u < 4 * w * (j + 1) → u % (4 * w) = p → good (im u)) ∧
      ∀ q ∈ after w p, good (im (4 * w * j + q)) := by
  unfold Counts
  rw [hm, Nat.mul_succ, Nat.add_sub_cancel, and_assoc]
  rw [Nat.mul_succ] at hv
  constructor
  · rintro (h | h)
    · omega
    · exact h
  · exact Or.inr

theorem y_node (hgt : ∀ a b, gt a b = true ↔ good a ∧ good b ∧ key' b < key' a) (hi : good init)
    (hinit : ∀ x, good x → key' init ≤ key' x) (j : Nat) :
    Node good key' init im (good (im (32 * j + 31))) (fun i => i < 32 * (j + 1) ∧ Counts good im 8 (32 * (j + 1)) i)
      (im (32 * j + 31)) (fold4 (maxps gt) (half (maxps gt) (join (maxps gt) (acc (maxps gt) init im 8 (j + 1))))) := by
  have L : ∀ r < 4, ∀ l < 8, _ := fun r hr l hl => lane_node (im := im) hgt hi hinit 8 (r := r) (l := l) (by omega) j
  have J : ∀ l < 8, _ := fun l hl => (((L 0 (by omega) l hl).max hgt (L 1 (by omega) l hl)).max hgt (L 2 (by omega) l hl)).max hgt (L 3 (by omega) l hl)
  have H : ∀ l < 4, _ := fun l hl => (J l (by omega)).max hgt (J (l + 4) (by omega))
  have T := ((H 0 (by omega)).max hgt (H 2 (by omega))).max hgt ((H 1 (by omega)).max hgt (H 3 (by omega)))
  refine T.congr Iff.rfl fun i => ?_
  clear T H L
  by_cases hv : i < 32 * (j + 1)
  · have hm : i % 32 < 32 := Nat.mod_lt _ (by decide)
    generalize hp : i % 32 = p at hm
    have c := counts_iff (good := good) (im := im) 8 j i p hv hp
    rw [show 32 * (j + 1) = 4 * 8 * (j + 1) from rfl, c]
    clear c
    have hv' : i < 4 * 8 * (j + 1) := hv
    have hp' : i % (4 * 8) = p := hp
    simp only [hv', hp', true_and]
    clear hv' hp' hp hv
    obtain rfl | rfl | rfl | rfl | rfl | rfl | rfl | rfl | rfl | rfl | rfl | rfl | rfl | rfl | rfl | rfl | rfl | rfl | rfl | rfl | rfl | rfl | rfl | rfl | rfl | rfl | rfl | rfl | rfl | rfl | rfl | rfl : p = 0 ∨ p = 1 ∨ p = 2 ∨ p = 3 ∨ p = 4 ∨ p = 5 ∨ p = 6 ∨ p = 7 ∨ p = 8 ∨ p = 9 ∨ p = 10 ∨ p = 11 ∨ p = 12 ∨ p = 13 ∨ p = 14 ∨ p = 15 ∨ p = 16 ∨ p = 17 ∨ p = 18 ∨ p = 19 ∨ p = 20 ∨ p = 21 ∨ p = 22 ∨ p = 23 ∨ p = 24 ∨ p = 25 ∨ p = 26 ∨ p = 27 ∨ p = 28 ∨ p = 29 ∨ p = 30 ∨ p = 31 := by omega
    all_goals
      simp only [after, Nat.reduceMul, Nat.reduceAdd, Nat.reduceMod, Nat.reduceLT, Nat.reduceSub, Nat.reduceEqDiff, if_true, if_false, false_and, and_false, or_false, false_or, true_and,
        List.append_nil, List.nil_append, List.cons_append, List.mem_cons, List.not_mem_nil, forall_eq_or_imp, forall_eq, ne_eq, not_true_eq_false, not_false_eq_true]
      try tauto
  · have hv' : ¬ i < 4 * 8 * (j + 1) := hv
    simp only [hv, hv', false_and, and_false, or_false]

theorem x_node (hgt : ∀ a b, gt a b = true ↔ good a ∧ good b ∧ key' b < key' a) (hi : good init)
    (hinit : ∀ x, good x → key' init ≤ key' x) (j : Nat) :
    Node good key' init im (good (im (16 * j + 15))) (fun i => i < 16 * (j + 1) ∧ Counts good im 4 (16 * (j + 1)) i)
      (im (16 * j + 15)) (fold4 (maxps gt) (join (maxps gt) (acc (maxps gt) init im 4 (j + 1)))) := by
  have L : ∀ r < 4, ∀ l < 4, _ := fun r hr l hl => lane_node (im := im) hgt hi hinit 4 (r := r) (l := l) (by omega) j
  have H : ∀ l < 4, _ := fun l hl => (((L 0 (by omega) l hl).max hgt (L 1 (by omega) l hl)).max hgt (L 2 (by omega) l hl)).max hgt (L 3 (by omega) l hl)
  have T := ((H 0 (by omega)).max hgt (H 2 (by omega))).max hgt ((H 1 (by omega)).max hgt (H 3 (by omega)))
  refine T.congr Iff.rfl fun i => ?_
  clear T H L
  by_cases hv : i < 16 * (j + 1)
  · have hm : i % 16 < 16 := Nat.mod_lt _ (by decide)
    generalize hp : i % 16 = p at hm
    have c := counts_iff (good := good) (im := im) 4 j i p hv hp
    rw [show 16 * (j + 1) = 4 * 4 * (j + 1) from rfl, c]
    clear c
    have hv' : i < 4 * 4 * (j + 1) := hv
    have hp' : i % (4 * 4) = p := hp
    simp only [hv', hp', true_and]
    clear hv' hp' hp hv
    obtain rfl | rfl | rfl | rfl | rfl | rfl | rfl | rfl | rfl | rfl | rfl | rfl | rfl | rfl | rfl | rfl : p = 0 ∨ p = 1 ∨ p = 2 ∨ p = 3 ∨ p = 4 ∨ p = 5 ∨ p = 6 ∨ p = 7 ∨ p = 8 ∨ p = 9 ∨ p = 10 ∨ p = 11 ∨ p = 12 ∨ p = 13 ∨ p = 14 ∨ p = 15 := by omega
    all_goals
      simp only [after, Nat.reduceMul, Nat.reduceAdd, Nat.reduceMod, Nat.reduceLT, Nat.reduceSub, Nat.reduceEqDiff, if_true, if_false, false_and, and_false, or_false, false_or, true_and,
        List.append_nil, List.nil_append, List.cons_append, List.mem_cons, List.not_mem_nil, forall_eq_or_imp, forall_eq, ne_eq, not_true_eq_false, not_false_eq_true]
      try tauto
  · have hv' : ¬ i < 4 * 4 * (j + 1) := hv
    simp only [hv, hv', false_and, and_false, or_false]

/-- The result is the last element of the vector part if that is not a number, otherwise the extreme of what counts. -/
theorem vExtremeAmd_exact (hgt : ∀ a b, gt a b = true ↔ good a ∧ good b ∧ key' b < key' a) (hi : good init)
    (hinit : ∀ x, good x → key' init ≤ key' x) (a s : Bool) (n : Nat) (im : Nat → F) :
    ∃ y, vExtremeAmd gt init a s n im = some y ∧
      ((0 < vecPart a s n ∧ ¬ good (im (vecPart a s n - 1))) → y = im (vecPart a s n - 1)) ∧
      (¬ (0 < vecPart a s n ∧ ¬ good (im (vecPart a s n - 1))) →
        IsExt good key' init im (fun i => i < n ∧ Counts good im (lanes a) (vecPart a s n) i) y) := by
  refine ⟨_, vExtremeAmd_eq gt init a s n im, ?_⟩
  have whole : ∀ w, IsExt good key' init im (fun i => i < n ∧ Counts good im w 0 i) (steps (fun x y => if gt y x then y else x) im init 0 n) := fun w =>
    (steps_ext hgt (IsExt.base (im := im) hi) 0 n).congr fun i => by
      simp only [Counts, Nat.zero_le, true_or, and_true, false_or, true_and, Nat.zero_add]
  have part : ∀ w v r P x, n = v + r → Node good key' init im P (fun i => i < v ∧ Counts good im w v i) (im (v - 1)) x → (P ↔ good (im (v - 1))) → 0 < v →
      (0 < v ∧ ¬ good (im (v - 1)) → steps (fun x y => if gt y x then y else x) im x v r = im (v - 1)) ∧
      (¬ (0 < v ∧ ¬ good (im (v - 1))) → IsExt good key' init im (fun i => i < n ∧ Counts good im w v i)
        (steps (fun x y => if gt y x then y else x) im x v r)) := by
    intro w v r P x hn h hP hv
    refine ⟨fun ⟨_, q⟩ => ?_, fun q => ?_⟩
    · have q' : ¬ P := fun p => q (hP.1 p)
      rw [steps_bad hgt (fun g => q' (h.isGood.1 g)), h.bad q']
    · have q' : P := by
        by_contra p
        exact q ⟨hv, fun g => p (hP.2 g)⟩
      refine (steps_ext hgt (h.ext q') v r).congr fun i => ?_
      constructor
      · rintro (⟨h1, h2⟩ | h)
        · exact ⟨by omega, h2⟩
        · exact ⟨by omega, Or.inl h.1⟩
      · rintro ⟨h1, h2⟩
        by_cases c : i < v
        · exact Or.inl ⟨c, h2⟩
        · exact Or.inr (by omega)
  unfold res vecPart lanes
  cases a with
  | true =>
    simp only [if_true, true_and, not_true_eq_false, false_and, if_false]
    by_cases c : 0 < n - n % 32
    · rw [if_pos c]
      obtain ⟨j, hj⟩ : ∃ j, n / 32 = j + 1 := ⟨n / 32 - 1, by omega⟩
      have e : n - n % 32 = 32 * (j + 1) := by omega
      have e' : 32 * j + 31 = 32 * (j + 1) - 1 := by omega
      have := y_node (im := im) hgt hi hinit j
      rw [e'] at this
      rw [e, hj]
      exact part 8 _ _ _ _ (by omega) this Iff.rfl (by omega)
    · rw [if_neg c, show n - n % 32 = 0 by omega]
      exact ⟨fun h => absurd h.1 (by omega), fun _ => whole 8⟩
  | false =>
    cases s with
    | true =>
      simp only [Bool.false_eq_true, if_true, if_false, false_and, not_false_eq_true, true_and]
      by_cases c : 0 < n - n % 16
      · rw [if_pos c]
        obtain ⟨j, hj⟩ : ∃ j, n / 16 = j + 1 := ⟨n / 16 - 1, by omega⟩
        have e : n - n % 16 = 16 * (j + 1) := by omega
        have e' : 16 * j + 15 = 16 * (j + 1) - 1 := by omega
        have := x_node (im := im) hgt hi hinit j
        rw [e'] at this
        rw [e, hj]
        exact part 4 _ _ _ _ (by omega) this Iff.rfl (by omega)
      · rw [if_neg c, show n - n % 16 = 0 by omega]
        exact ⟨fun h => absurd h.1 (by omega), fun _ => whole 4⟩
    | false =>
      simp only [Bool.false_eq_true, if_false, false_and, and_false]
      exact ⟨fun h => absurd h.1 (by omega), fun _ => whole 4⟩

/-! ## Property theorems -/

theorem key_bot (x : Val) : key (.inf true) ≤ key x := bot_le

theorem key_top (x : Val) (h : x ≠ .nan) : key x ≤ key (.inf false) := by
  rcases x with _ | s | ⟨s, q⟩
  · exact (h rfl).elim
  · cases s
    · exact le_refl _
    · exact bot_le
  · exact WithBot.coe_le_coe.2 le_top

/-- **C26, the maximum with not-a-numbers anywhere.** It is NaN exactly if the last element of the vector part is; otherwise it is −∞ or an
element that counts, and at least every number that counts. -/
theorem C26_max_nan (useAVX2 useSSE2 : Bool) (n : Nat) (im : Nat → Val) :
    ∃ y, vExtremeAmd gtF (.inf true) useAVX2 useSSE2 n im = some y ∧
      (y = .nan ↔ 0 < vecPart useAVX2 useSSE2 n ∧ im (vecPart useAVX2 useSSE2 n - 1) = .nan) ∧
      (y ≠ .nan → (y = .inf true ∨ ∃ i, i < n ∧ Counts (· ≠ Val.nan) im (lanes useAVX2) (vecPart useAVX2 useSSE2 n) i ∧ y = im i) ∧
        ∀ i, i < n → Counts (· ≠ Val.nan) im (lanes useAVX2) (vecPart useAVX2 useSSE2 n) i → im i ≠ .nan → key (im i) ≤ key y) := by
  obtain ⟨y, h1, h2, h3⟩ := vExtremeAmd_exact (init := Val.inf true) gtF_iff (by simp) (fun x _ => key_bot x) useAVX2 useSSE2 n im
  simp only [ne_eq, not_not] at h2 h3
  have iff : y = .nan ↔ 0 < vecPart useAVX2 useSSE2 n ∧ im (vecPart useAVX2 useSSE2 n - 1) = .nan := by
    constructor
    · intro h
      by_contra c
      exact (h3 c).isGood h
    · intro h
      rw [h2 h, h.2]
  refine ⟨y, h1, iff, fun hy => ?_⟩
  have E := h3 fun c => hy (iff.2 c)
  exact ⟨E.mem.imp_right fun ⟨i, ⟨a, b⟩, c⟩ => ⟨i, a, b, c⟩, fun i a b c => E.ge i ⟨a, b⟩ c⟩

/-- **C26, the minimum with not-a-numbers anywhere.** -/
theorem C26_min_nan (useAVX2 useSSE2 : Bool) (n : Nat) (im : Nat → Val) :
    ∃ y, vExtremeAmd ltF (.inf false) useAVX2 useSSE2 n im = some y ∧
      (y = .nan ↔ 0 < vecPart useAVX2 useSSE2 n ∧ im (vecPart useAVX2 useSSE2 n - 1) = .nan) ∧
      (y ≠ .nan → (y = .inf false ∨ ∃ i, i < n ∧ Counts (· ≠ Val.nan) im (lanes useAVX2) (vecPart useAVX2 useSSE2 n) i ∧ y = im i) ∧
        ∀ i, i < n → Counts (· ≠ Val.nan) im (lanes useAVX2) (vecPart useAVX2 useSSE2 n) i → im i ≠ .nan → key y ≤ key (im i)) := by
  obtain ⟨y, h1, h2, h3⟩ := vExtremeAmd_exact (init := Val.inf false) ltF_iff (by simp)
    (fun x hx => OrderDual.toDual_le_toDual.2 (key_top x hx)) useAVX2 useSSE2 n im
  simp only [ne_eq, not_not] at h2 h3
  have iff : y = .nan ↔ 0 < vecPart useAVX2 useSSE2 n ∧ im (vecPart useAVX2 useSSE2 n - 1) = .nan := by
    constructor
    · intro h
      by_contra c
      exact (h3 c).isGood h
    · intro h
      rw [h2 h, h.2]
  refine ⟨y, h1, iff, fun hy => ?_⟩
  have E := h3 fun c => hy (iff.2 c)
  exact ⟨E.mem.imp_right fun ⟨i, ⟨a, b⟩, c⟩ => ⟨i, a, b, c⟩, fun i a b c => E.ge i ⟨a, b⟩ c⟩

/-- **C26, when a number is lost.** A number in the vector part does not count exactly if there is a not-a-number after it in its lane, or in one
of the places of the last block named by `after`. -/
theorem C26_lost_iff (im : Nat → Val) (w v i : Nat) (hi : i < v) (hg : im i ≠ .nan) :
    ¬ Counts (· ≠ Val.nan) im w v i ↔ (∃ u, i < u ∧ u < v ∧ u % (4 * w) = i % (4 * w) ∧ im u = .nan) ∨
      ∃ p ∈ after w (i % (4 * w)), im (v - 4 * w + p) = .nan := by
  unfold Counts
  simp only [hg, ne_eq, not_false_eq_true, true_and, not_or, not_and_or, not_forall, not_not, exists_prop, show ¬ v ≤ i by omega]

/-- With SSE2 a NaN at the last of 16 elements makes the result NaN, at index 14 it hides the elements of lane 0 (0, 4, 8, 12) and of lane 2. -/
example : (∃ y, vExtremeAmd gtF (.inf true) false true 16 (fun i => if i = 15 then .nan else .fin false 1) = some y ∧ y = .nan) ∧
    (∀ i < 16, ¬ Counts (· ≠ Val.nan) (fun i => if i = 14 then .nan else .fin false 1) 4 16 i ↔ i % 4 = 0 ∨ i % 4 = 2) := by
  constructor
  · obtain ⟨y, h1, h2, -⟩ := C26_max_nan false true 16 (fun i => if i = 15 then .nan else .fin false 1)
    exact ⟨y, h1, h2.2 ⟨by decide, rfl⟩⟩
  · intro i hi
    by_cases q : i = 14
    · subst q
      simp [Counts]
    · rw [C26_lost_iff _ _ _ _ hi (by simp [q])]
      simp only [ite_eq_left_iff, reduceCtorEq, imp_false, not_not]
      obtain rfl | rfl | rfl | rfl | rfl | rfl | rfl | rfl | rfl | rfl | rfl | rfl | rfl | rfl | rfl | rfl : i = 0 ∨ i = 1 ∨ i = 2 ∨ i = 3 ∨ i = 4 ∨ i = 5 ∨
        i = 6 ∨ i = 7 ∨ i = 8 ∨ i = 9 ∨ i = 10 ∨ i = 11 ∨ i = 12 ∨ i = 13 ∨ i = 14 ∨ i = 15 := by omega
      all_goals first | exact (q rfl).elim | skip
      all_goals
        simp [after]
        try omega

end Verif.Asm
