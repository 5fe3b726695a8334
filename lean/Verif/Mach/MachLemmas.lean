import Verif.Mach.MachModel
import Verif.X86.X86Lemmas

/-!
# Reasoning about runs, memory and instruction words
-/

namespace Verif.Mach

variable {L I C S : Type} [DecidableEq L] [DecidableEq I] [DecidableEq C]

/-! ### Runs -/

/-- From line `pc` in state `s` the run comes to line `pc'` in state `s'`. -/
def Reach (m : Sem S I C) (p : Prog L I C) (pc : Nat) (s : S) (pc' : Nat) (s' : S) : Prop :=
  ∃ n, ∀ k, run m p (n + k) pc s = run m p k pc' s'

/-- The run from `pc` returns in state `s'`. -/
def Returns (m : Sem S I C) (p : Prog L I C) (pc : Nat) (s s' : S) : Prop := ∃ n, run m p n pc s = .done s'

/-- The run from `pc` faults. -/
def Faults (m : Sem S I C) (p : Prog L I C) (pc : Nat) (s : S) : Prop := ∃ n, run m p n pc s = .fault

/-- The jump to a routine `l` outside of the program. -/
def Tails (m : Sem S I C) (p : Prog L I C) (pc : Nat) (s : S) (l : L) (s' : S) : Prop := ∃ n, run m p n pc s = .tail l s'

variable {m : Sem S I C} {p : Prog L I C}

theorem Reach.refl (m : Sem S I C) (p : Prog L I C) (pc : Nat) (s : S) : Reach m p pc s pc s := ⟨0, fun k => by rw [Nat.zero_add]⟩

theorem Reach.trans {a b c : Nat} {s t u : S} (h : Reach m p a s b t) (h' : Reach m p b t c u) : Reach m p a s c u := by
  obtain ⟨n, hn⟩ := h
  obtain ⟨k, hk⟩ := h'
  exact ⟨n + k, fun j => by rw [Nat.add_assoc, hn, hk]⟩

theorem reach_step {pc pc' : Nat} {s s' : S} (h : step m p pc s = .more pc' s') : Reach m p pc s pc' s' :=
  ⟨1, fun k => by rw [Nat.add_comm, run, h]⟩

theorem Reach.returns {a b : Nat} {s t u : S} (h : Reach m p a s b t) (h' : Returns m p b t u) : Returns m p a s u := by
  obtain ⟨n, hn⟩ := h
  obtain ⟨k, hk⟩ := h'
  exact ⟨n + k, by rw [hn, hk]⟩

theorem Reach.faults {a b : Nat} {s t : S} (h : Reach m p a s b t) (h' : Faults m p b t) : Faults m p a s := by
  obtain ⟨n, hn⟩ := h
  obtain ⟨k, hk⟩ := h'
  exact ⟨n + k, by rw [hn, hk]⟩

theorem Reach.tails {a b : Nat} {s t u : S} {l : L} (h : Reach m p a s b t) (h' : Tails m p b t l u) : Tails m p a s l u := by
  obtain ⟨n, hn⟩ := h
  obtain ⟨k, hk⟩ := h'
  exact ⟨n + k, by rw [hn, hk]⟩

theorem returns_ret {pc : Nat} {s : S} (h : p[pc]? = some .RET) : Returns m p pc s s := ⟨1, by rw [run, step, h]⟩

/-- More fuel does not change a result. -/
theorem run_mono {n : Nat} {pc : Nat} {s s' : S} (h : run m p n pc s = .done s') (k : Nat) : run m p (n + k) pc s = .done s' := by
  induction n generalizing pc s with
  | zero => simp [run] at h
  | succ n ih =>
    rw [Nat.succ_add, run]
    rw [run] at h
    cases hs : step m p pc s with
    | done t => rw [hs] at h; simpa using h
    | tail l t => rw [hs] at h; simp at h
    | fault => rw [hs] at h; simp at h
    | more pc' t => rw [hs] at h; exact ih h

/-- The result of a run is unique. -/
theorem Returns.unique {pc : Nat} {s s' s'' : S} (h : Returns m p pc s s') (h' : Returns m p pc s s'') : s' = s'' := by
  obtain ⟨n, hn⟩ := h
  obtain ⟨k, hk⟩ := h'
  have a := run_mono hn k
  have b := run_mono hk n
  rw [Nat.add_comm k n, a] at b
  simpa using b

/-- A run that faults does not return. -/
theorem Faults.not_returns {pc : Nat} {s : S} (h : Faults m p pc s) (s' : S) : ¬ Returns m p pc s s' := by
  obtain ⟨n, hn⟩ := h
  rintro ⟨k, hk⟩
  induction n generalizing pc s k with
  | zero => simp [run] at hn
  | succ n ih =>
    cases k with
    | zero => simp [run] at hk
    | succ k =>
      rw [run] at hn hk
      cases hs : step m p pc s with
      | done t => rw [hs] at hn; simp at hn
      | tail l t => rw [hs] at hn; simp at hn
      | fault => rw [hs] at hk; simp at hk
      | more pc' t => rw [hs] at hn hk; exact ih hn k hk

theorem faults_ins {pc : Nat} {s : S} {i : I} (h : p[pc]? = some (.ins i)) (hx : m.exec i s = none) : Faults m p pc s :=
  ⟨1, by simp only [run, step, h, hx]⟩

/-- Straight-line code. -/
def blk (m : Sem S I C) : List (Line L I C) → S → Option S
  | [], s => some s
  | .nop :: ls, s => blk m ls s
  | .label _ :: ls, s => blk m ls s
  | .ins i :: ls, s => (m.exec i s).bind (blk m ls)
  | .j _ _ :: _, _ => none
  | .RET :: _, _ => none

theorem reach_blk (ls : List (Line L I C)) {pc : Nat} {s s' : S} (h : (p.drop pc).take ls.length = ls) (hb : blk m ls s = some s') :
    Reach m p pc s (pc + ls.length) s' := by
  induction ls generalizing pc s with
  | nil =>
    simp only [blk, Option.some.injEq] at hb
    subst hb
    exact Reach.refl _ _ _ _
  | cons a ls ih =>
    have hlt : pc < p.length := by
      by_contra hc
      rw [List.drop_eq_nil_of_le (by omega)] at h
      simp at h
    have ha : p[pc]? = some a := by
      have := congrArg (fun l => l[0]?) h
      simpa [List.getElem?_take, List.getElem?_drop] using this
    have ht : (p.drop (pc + 1)).take ls.length = ls := by
      rw [List.drop_eq_getElem_cons hlt, List.length_cons, List.take_succ_cons] at h
      exact (List.cons.inj h).2
    have next : ∀ t, step m p pc s = .more (pc + 1) t → blk m ls t = some s' → Reach m p pc s (pc + (a :: ls).length) s' := by
      intro t h1 h2
      have := (reach_step h1).trans (ih ht h2)
      rwa [List.length_cons, show pc + (ls.length + 1) = pc + 1 + ls.length by omega]
    cases a with
    | nop => exact next s (by rw [step, ha]) hb
    | label l => exact next s (by rw [step, ha]) hb
    | ins i =>
      rw [blk] at hb
      cases he : m.exec i s with
      | none => rw [he] at hb; simp at hb
      | some t =>
        rw [he] at hb
        exact next t (by rw [step, ha]; simp only [he]) hb
    | j c l => simp [blk] at hb
    | RET => simp [blk] at hb

/-- A conditional jump. -/
theorem reach_branch {pc t : Nat} {s : S} (c : C) (l : L) (h : p[pc]? = some (.j c l)) (hl : p.line l = some t) {b : Bool}
    (ht : m.taken c s = b) : Reach m p pc s (if b then t else pc + 1) s := by
  cases b
  · exact reach_step (by rw [step, h]; simp only [ht, Bool.false_eq_true, if_false])
  · exact reach_step (by rw [step, h]; simp only [ht, if_true, hl])

theorem tails_jmp {pc : Nat} {s : S} {c : C} {l : L} (h : p[pc]? = some (.j c l)) (ht : m.taken c s = true) (hl : p.line l = none) :
    Tails m p pc s l s := by
  refine ⟨1, ?_⟩
  simp only [run, step, h, ht, if_true, hl]

/-- Induction over the iterations of a loop with the test behind: in steps of `d`, as long as `d` more fit below `n`. -/
theorem dloop {a b : Nat} (P : Nat → S → Prop) (n d : Nat) (hd : 0 < d)
    (body : ∀ k s, k + d ≤ n → P k s → ∃ s', P (k + d) s' ∧ Reach m p a s (if k + 2 * d ≤ n then a else b) s') (k : Nat) (s : S) (hk : k + d ≤ n)
    (hp : P k s) : ∃ k' s', P k' s' ∧ k' ≤ n ∧ n < k' + d ∧ k' % d = k % d ∧ k < k' ∧ Reach m p a s b s' := by
  obtain ⟨t, ht⟩ : ∃ t, t = n - k := ⟨_, rfl⟩
  induction t using Nat.strong_induction_on generalizing k s with
  | _ t ih =>
    obtain ⟨s', h1, h2⟩ := body k s hk hp
    by_cases c : k + 2 * d ≤ n
    · rw [if_pos c] at h2
      obtain ⟨k', s'', g1, g2, g3, g4, g5, g6⟩ := ih (n - (k + d)) (by omega) (k + d) s' (by omega) h1 rfl
      exact ⟨k', s'', g1, g2, g3, by rw [g4, Nat.add_mod_right], by omega, h2.trans g6⟩
    · rw [if_neg c] at h2
      exact ⟨k + d, s', h1, by omega, by omega, by rw [Nat.add_mod_right], by omega, h2⟩

/-! ### Memory -/

variable {w : Nat}

theorem adv (b : BitVec w) (k j : Nat) : b + BitVec.ofNat w k + BitVec.ofNat w j = b + BitVec.ofNat w (k + j) := by
  rw [BitVec.add_assoc, ← BitVec.ofNat_add]

theorem adv0 (b : BitVec w) : b + BitVec.ofNat w 0 = b := by simp

theorem fill_fill (mem : BitVec w → BitVec 8) (b : BitVec w) (n j : Nat) (g x : Nat → BitVec 8) (h : n + j ≤ 2 ^ w)
    (hx : ∀ i < j, x i = g (n + i)) : fill (fill mem b n g) (b + BitVec.ofNat w n) j x = fill mem b (n + j) g := by
  funext a
  unfold fill
  have e : (a - (b + BitVec.ofNat w n)) = (a - b) - BitVec.ofNat w n := by
    rw [BitVec.sub_sub]
  rw [e]
  generalize a - b = d
  by_cases hj : j = 0
  · subst hj
    simp
  have hd := d.isLt
  have hs : (d - BitVec.ofNat w n).toNat = (2 ^ w - n + d.toNat) % 2 ^ w := by
    rw [BitVec.toNat_sub, BitVec.toNat_ofNat, Nat.mod_eq_of_lt (show n < 2 ^ w by omega)]
  rw [hs]
  rcases Nat.lt_or_ge d.toNat n with c | c
  · rw [Nat.mod_eq_of_lt (by omega), if_neg (by omega), if_pos c, if_pos (by omega)]
  · rw [show 2 ^ w - n + d.toNat = (d.toNat - n) + 2 ^ w by omega, Nat.add_mod_right, Nat.mod_eq_of_lt (by omega)]
    by_cases c2 : d.toNat - n < j
    · rw [if_pos c2, if_pos (by omega), hx _ c2, Nat.add_sub_cancel' c]
    · rw [if_neg c2, if_neg (by omega), if_neg (by omega)]

theorem fill_zero (mem : BitVec w → BitVec 8) (b : BitVec w) (g : Nat → BitVec 8) : fill mem b 0 g = mem := by
  funext a
  simp [fill]

/-- Addresses outside the region keep their bytes. -/
theorem fill_out {mem : BitVec w → BitVec 8} {b a : BitVec w} {n : Nat} {g : Nat → BitVec 8} (h : n ≤ (a - b).toNat) :
    fill mem b n g a = mem a := by
  unfold fill
  rw [if_neg (by omega)]

theorem fill_in {mem : BitVec w → BitVec 8} {b : BitVec w} {n i : Nat} {g : Nat → BitVec 8} (h : i < n) (hn : n ≤ 2 ^ w) :
    fill mem b n g (b + BitVec.ofNat w i) = g i := by
  unfold fill
  have : (b + BitVec.ofNat w i - b) = BitVec.ofNat w i := by
    rw [BitVec.add_comm, BitVec.add_sub_cancel]
  rw [this, BitVec.toNat_ofNat, Nat.mod_eq_of_lt (by omega), if_pos h]

theorem allBytes_of {q : BitVec w → Bool} {b : BitVec w} {k n : Nat} (h : ∀ i < n, q (b + BitVec.ofNat w (k + i)) = true) :
    allBytes q (b + BitVec.ofNat w k) n = true := by
  unfold allBytes
  rw [List.all_eq_true]
  intro i hi
  rw [adv]
  exact h i (List.mem_range.1 hi)

/-- `r` bytes from `ib` can be read, `v` bytes from `ob` can be written, and no byte is overwritten before it has been read: byte `i` of
the input is not among the first `c i` bytes of the output. -/
structure Io (rd wr : BitVec w → Bool) (ib ob : BitVec w) (r v : Nat) (c : Nat → Nat) : Prop where
  r_le : r < 2 ^ w
  v_le : v < 2 ^ w
  rd : ∀ i < r, rd (ib + BitVec.ofNat w i) = true
  wr : ∀ i < v, wr (ob + BitVec.ofNat w i) = true
  apart : ∀ i < r, c i ≤ (ib + BitVec.ofNat w i - ob).toNat

/-- The input bytes from position `k`. -/
def inp (m0 : BitVec w → BitVec 8) (ib : BitVec w) (k len : Nat) : Nat → BitVec 8 :=
  fun i => if i < len then m0 (ib + BitVec.ofNat w (k + i)) else 0

theorem Io.load {rd wr : BitVec w → Bool} {ib ob : BitVec w} {r v : Nat} {c : Nat → Nat} (h : Io rd wr ib ob r v c) {m0 : BitVec w → BitVec 8}
    {g : Nat → BitVec 8} {t : Nat} {mem : BitVec w → BitVec 8} (hm : mem = fill m0 ob t g) {a : BitVec w} {k len : Nat}
    (ha : a = ib + BitVec.ofNat w k) (hk : k + len ≤ r) (hc : ∀ i < len, t ≤ c (k + i)) : load rd mem a len = some (inp m0 ib k len) := by
  unfold Mach.load inp
  rw [ha, if_pos (allBytes_of fun i hi => h.rd _ (by omega))]
  congr 1
  funext i
  split
  · rename_i hi
    rw [adv, hm, fill_out]
    have := h.apart (k + i) (by omega)
    have := hc i hi
    omega
  · rfl

theorem Io.store {rd wr : BitVec w → Bool} {ib ob : BitVec w} {r v : Nat} {c : Nat → Nat} (h : Io rd wr ib ob r v c) {m0 : BitVec w → BitVec 8}
    {g : Nat → BitVec 8} {t : Nat} {mem : BitVec w → BitVec 8} (hm : mem = fill m0 ob t g) {a : BitVec w} {len : Nat} {x : Nat → BitVec 8}
    (ha : a = ob + BitVec.ofNat w t) (hk : t + len ≤ v) (hx : ∀ i < len, x i = g (t + i)) :
    store wr mem a len x = some (fill m0 ob (t + len) g) := by
  unfold Mach.store
  rw [ha, if_pos (allBytes_of fun i hi => h.wr _ (by omega)), hm, fill_fill _ _ _ _ _ _ (by have := h.v_le; omega) hx]

/-- A load that is not permitted. -/
theorem load_none {rd : BitVec w → Bool} {mem : BitVec w → BitVec 8} {a : BitVec w} {len i : Nat} (hi : i < len)
    (h : rd (a + BitVec.ofNat w i) = false) : load rd mem a len = none := by
  unfold load
  rw [if_neg]
  intro c
  unfold allBytes at c
  rw [List.all_eq_true] at c
  have := c i (List.mem_range.2 hi)
  rw [h] at this
  simp at this

/-! ### Instruction words -/

/-- Taking a word apart and building it are inverse to each other. -/
theorem parse_iff (q : List Seg) (x : Nat) (fs : List Nat) : parse q x = some fs ↔ build q fs = some x := by
  induction q generalizing x fs with
  | nil =>
    cases fs with
    | nil =>
      simp only [parse, build, Option.some.injEq]
      split <;> rename_i h
      · simp [h]
      · simp [eq_comm, h]
    | cons a fs =>
      simp only [parse, build]
      split <;> simp
  | cons s q ih =>
    cases s with
    | k n v =>
      have hp := Nat.two_pow_pos n
      rw [parse, build]
      split <;> rename_i h
      · rw [ih, if_pos (h ▸ Nat.mod_lt _ hp)]
        constructor
        · intro hb
          rw [hb, Option.map_some, ← h, Nat.mod_add_div]
        · intro hb
          rw [Option.map_eq_some_iff] at hb
          obtain ⟨y, h1, h2⟩ := hb
          rw [h1, ← h2, Nat.add_mul_div_left _ _ hp, Nat.div_eq_of_lt (h ▸ Nat.mod_lt _ hp), Nat.zero_add]
      · constructor
        · intro hb
          cases hb
        · intro hb
          split at hb <;> rename_i hv
          · rw [Option.map_eq_some_iff] at hb
            obtain ⟨y, h1, h2⟩ := hb
            refine (h ?_).elim
            rw [← h2, Nat.add_mul_mod_self_left, Nat.mod_eq_of_lt hv]
          · cases hb
    | f n =>
      have hp := Nat.two_pow_pos n
      cases fs with
      | nil =>
        rw [parse, build]
        simp
      | cons a fs =>
        rw [parse, build]
        constructor
        · intro hb
          rw [Option.map_eq_some_iff] at hb
          obtain ⟨gs, h1, h2⟩ := hb
          obtain ⟨rfl, rfl⟩ := List.cons.inj h2
          rw [if_pos (Nat.mod_lt _ hp), (ih _ _).1 h1, Option.map_some, Nat.mod_add_div]
        · intro hb
          split at hb <;> rename_i ha
          · rw [Option.map_eq_some_iff] at hb
            obtain ⟨y, h1, h2⟩ := hb
            have e1 : x / 2 ^ n = y := by rw [← h2, Nat.add_mul_div_left _ _ hp, Nat.div_eq_of_lt ha, Nat.zero_add]
            have e2 : x % 2 ^ n = a := by rw [← h2, Nat.add_mul_mod_self_left, Nat.mod_eq_of_lt ha]
            rw [e1, (ih _ _).2 h1, Option.map_some, e2]
          · cases hb

/-- The bits of a format, lowest first; `none` for the bits of a field. -/
def bits : List Seg → List (Option Bool)
  | [] => []
  | .k n v :: r => (List.range n).map (fun i => some (v.testBit i)) ++ bits r
  | .f n :: r => List.replicate n none ++ bits r

/-- Two formats differ in a constant bit. -/
def clash : List (Option Bool) → List (Option Bool) → Bool
  | some a :: q, some b :: r => a != b || clash q r
  | _ :: q, _ :: r => clash q r
  | _, _ => false

theorem bits_parse {q : List Seg} {x : Nat} {fs : List Nat} (h : parse q x = some fs) {i : Nat} {b : Bool} (hb : (bits q)[i]? = some (some b)) :
    x.testBit i = b := by
  induction q generalizing x fs i with
  | nil => simp [bits] at hb
  | cons s q ih =>
    cases s with
    | k n v =>
      rw [parse] at h
      split at h <;> rename_i hv
      · rw [bits, List.getElem?_append] at hb
        simp only [List.length_map, List.length_range] at hb
        split at hb <;> rename_i hi
        · simp only [List.getElem?_map, List.getElem?_range hi, Option.map_some, Option.some.injEq] at hb
          rw [← hb, ← hv, Nat.testBit_mod_two_pow]
          simp [hi]
        · have := ih h hb
          rwa [Nat.testBit_div_two_pow, Nat.sub_add_cancel (by omega)] at this
      · cases h
    | f n =>
      rw [parse, Option.map_eq_some_iff] at h
      obtain ⟨gs, h, -⟩ := h
      rw [bits, List.getElem?_append] at hb
      simp only [List.length_replicate] at hb
      split at hb <;> rename_i hi
      · rw [List.getElem?_replicate, if_pos hi] at hb
        cases hb
      · have := ih h hb
        rwa [Nat.testBit_div_two_pow, Nat.sub_add_cancel (by omega)] at this

theorem clash_bits {q r : List (Option Bool)} (h : clash q r = true) : ∃ (i : Nat) (b : Bool), q[i]? = some (some b) ∧ r[i]? = some (some (!b)) := by
  induction q generalizing r with
  | nil => simp [clash] at h
  | cons a q ih =>
    cases r with
    | nil => cases a <;> simp [clash] at h
    | cons b r =>
      have step : clash q r = true → ∃ (i : Nat) (c : Bool), (a :: q)[i]? = some (some c) ∧ (b :: r)[i]? = some (some (!c)) := by
        intro h
        obtain ⟨i, c, h1, h2⟩ := ih h
        exact ⟨i + 1, c, by simpa using h1, by simpa using h2⟩
      cases a with
      | none => exact step (by simpa [clash] using h)
      | some a =>
        cases b with
        | none => exact step (by simpa [clash] using h)
        | some b =>
          rw [clash, Bool.or_eq_true] at h
          rcases h with h | h
          · refine ⟨0, a, rfl, ?_⟩
            revert h
            cases a <;> cases b <;> simp
          · exact step h

/-- A word has at most one of two formats that clash. -/
theorem clash_parse {q r : List Seg} (h : clash (bits q) (bits r) = true) {x : Nat} {fs gs : List Nat} (h1 : parse q x = some fs)
    (h2 : parse r x = some gs) : False := by
  obtain ⟨i, b, a1, a2⟩ := clash_bits h
  have := bits_parse h1 a1
  rw [bits_parse h2 a2] at this
  cases b <;> simp at this

/-- A table of formats in which every two clash. -/
def Distinct {O : Type} (fmt : List (O × List Seg)) : Prop := fmt.Pairwise fun q r => clash (bits q.2) (bits r.2) = true

/-- With such a table decoding is the inverse of encoding. -/
theorem decode_iff {O : Type} {fmt : List (O × List Seg)} (hf : Distinct fmt) (x : Nat) (o : O) (fs : List Nat) :
    decode fmt x = some (o, fs) ↔ ∃ q, (o, q) ∈ fmt ∧ build q fs = some x := by
  unfold decode
  induction fmt with
  | nil => simp
  | cons a fmt ih =>
    obtain ⟨h1, h2⟩ := List.pairwise_cons.1 hf
    rw [List.findSome?_cons]
    cases hp : parse a.2 x with
    | none =>
      rw [Option.map_none]
      simp only
      rw [ih h2]
      constructor
      · rintro ⟨q, m1, m2⟩
        exact ⟨q, List.mem_cons_of_mem _ m1, m2⟩
      · rintro ⟨q, m1, m2⟩
        rcases List.mem_cons.1 m1 with e | m1
        · rw [← parse_iff, show q = a.2 from congrArg Prod.snd e, hp] at m2
          cases m2
        · exact ⟨q, m1, m2⟩
    | some gs =>
      rw [Option.map_some]
      simp only [Option.some.injEq]
      constructor
      · intro e
        obtain ⟨rfl, rfl⟩ := Prod.mk.inj e
        exact ⟨a.2, List.mem_cons_self, (parse_iff _ _ _).1 hp⟩
      · rintro ⟨q, m1, m2⟩
        rcases List.mem_cons.1 m1 with e | m1
        · subst e
          rw [← parse_iff, hp] at m2
          rw [Option.some.inj m2]
        · exact (clash_parse (h1 _ m1) hp ((parse_iff _ _ _).2 m2)).elim

end Verif.Mach
