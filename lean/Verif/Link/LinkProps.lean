import Mathlib.Tactic.Linarith
import Mathlib.Data.List.Pairwise
import Mathlib.Data.List.Nodup
import Verif.Link.LinkModel

/-!
# C94: the assembly is joined to the Go code as declared

`C94_layout` is about every signature.  The other theorems go through the whole tables of the package, which
are finite: they are exhaustive, not samples.
-/

namespace Verif.Link

/-! ## The frame of any signature -/

theorem le_alignUp (x : Nat) {n : Nat} (h : 0 < n) : x ≤ alignUp x n := by
  unfold alignUp
  have h1 := Nat.div_add_mod (x + n - 1) n
  have h2 := Nat.mod_lt (x + n - 1) h
  have h3 : n * ((x + n - 1) / n) = (x + n - 1) / n * n := Nat.mul_comm _ _
  omega

theorem alignUp_mod (x n : Nat) : alignUp x n % n = 0 := by
  unfold alignUp; exact Nat.mul_mod_left _ _

theorem Arch.word_pos (a : Arch) : 0 < a.word := by cases a <;> decide

theorem Ty.align_pos (a : Arch) (t : Ty) : 0 < t.align a := by
  cases t <;> simp [Ty.align, a.word_pos]

/-- A list of fields lies between two offsets, in order and without overlap. -/
def Ordered (lo hi : Nat) (l : List Field) : Prop :=
  (∀ f ∈ l, lo ≤ f.off ∧ f.off + f.width ≤ hi) ∧ l.Pairwise fun f g => f.off + f.width ≤ g.off

theorem Ordered.append {lo mid hi : Nat} {l m : List Field} (h1 : Ordered lo mid l) (h2 : Ordered mid hi m)
    (ha : lo ≤ mid) (hb : mid ≤ hi) : Ordered lo hi (l ++ m) := by
  constructor
  · intro f hf
    rcases List.mem_append.1 hf with h | h
    · have := h1.1 f h; omega
    · have := h2.1 f h; omega
  · rw [List.pairwise_append]
    refine ⟨h1.2, h2.2, fun f hf g hg => ?_⟩
    have := h1.1 f hf; have := h2.1 g hg; omega

theorem Ordered.weaken {lo lo' hi : Nat} {l : List Field} (h : Ordered lo hi l) (hl : lo' ≤ lo) :
    Ordered lo' hi l :=
  ⟨fun f hf => ⟨hl.trans (h.1 f hf).1, (h.1 f hf).2⟩, h.2⟩

theorem placeParts_ordered (r : Bool) (n : String) (l : List (Part × Nat)) : ∀ o,
    Ordered o (placeParts r n o l).2 (placeParts r n o l).1 ∧ o ≤ (placeParts r n o l).2 := by
  induction l with
  | nil => intro o; exact ⟨⟨by simp [placeParts], by simp [placeParts]⟩, le_refl _⟩
  | cons p l ih =>
    intro o
    obtain ⟨p, w⟩ := p
    obtain ⟨h1, h2⟩ := ih (o + w)
    simp only [placeParts]
    refine ⟨?_, by omega⟩
    have h0 : Ordered o (o + w) [⟨r, n, p, o, w⟩] := ⟨by simp, by simp⟩
    exact h0.append h1 (by omega) h2

theorem place_ordered (a : Arch) (r : Bool) (l : List (String × Ty)) : ∀ o,
    Ordered o (place a r o l).2 (place a r o l).1 ∧ o ≤ (place a r o l).2 := by
  induction l with
  | nil => intro o; exact ⟨⟨by simp [place], by simp [place]⟩, le_refl _⟩
  | cons p l ih =>
    intro o
    obtain ⟨n, t⟩ := p
    simp only [place]
    have h0 := le_alignUp o (t.align_pos a)
    obtain ⟨h1, h2⟩ := placeParts_ordered r n (t.parts a) (alignUp o (t.align a))
    obtain ⟨h3, h4⟩ := ih (placeParts r n (alignUp o (t.align a)) (t.parts a)).2
    exact ⟨(h1.weaken h0).append h3 (h0.trans h2) h4, h0.trans (h2.trans h4)⟩

theorem placeParts_field (r : Bool) (n : String) (l : List (Part × Nat)) {k : Nat}
    (hk : ∀ p ∈ l, p.2 % k = 0) : ∀ o, o % k = 0 →
    (∀ f ∈ (placeParts r n o l).1, f.result = r ∧ f.name = n ∧ (f.part, f.width) ∈ l ∧ f.off % k = 0) := by
  induction l with
  | nil => intro o _ f hf; simp [placeParts] at hf
  | cons p l ih =>
    intro o ho f hf
    obtain ⟨p, w⟩ := p
    simp only [placeParts, List.mem_cons] at hf
    rcases hf with rfl | hf
    · simp [ho]
    · have hw := hk (p, w) (by simp)
      have := ih (fun q hq => hk q (List.mem_cons_of_mem _ hq)) (o + w)
        (by simp at hw; rw [Nat.add_mod, ho, hw]; simp) f hf
      exact ⟨this.1, this.2.1, List.mem_cons_of_mem _ this.2.2.1, this.2.2.2⟩

theorem Ty.parts_mod (a : Arch) (t : Ty) : ∀ p ∈ t.parts a, p.2 % t.align a = 0 := by
  cases a <;> cases t <;> decide

theorem place_field (a : Arch) (r : Bool) (l : List (String × Ty)) : ∀ o,
    ∀ f ∈ (place a r o l).1, f.result = r ∧
      ∃ t, (f.name, t) ∈ l ∧ (f.part, f.width) ∈ t.parts a ∧ f.off % t.align a = 0 := by
  induction l with
  | nil => intro o f hf; simp [place] at hf
  | cons p l ih =>
    intro o f hf
    obtain ⟨n, t⟩ := p
    simp only [place, List.mem_append] at hf
    rcases hf with hf | hf
    · obtain ⟨h1, h2, h3, h4⟩ := placeParts_field r n (t.parts a) (t.parts_mod a) _
        (alignUp_mod o (t.align a)) f hf
      exact ⟨h1, t, by simp [h2], h3, h4⟩
    · obtain ⟨h1, t', h2, h3⟩ := ih _ f hf
      exact ⟨h1, t', List.mem_cons_of_mem _ h2, h3⟩

/-- C94, layout: for every architecture and every signature, the fields of the frame are in order, do not
overlap, end within the size of the frame, and each belongs to a parameter or result of the signature, has
the size of that part of its type, and is aligned as its type. -/
theorem C94_layout (a : Arch) (s : Sig) :
    ((frame a s).1.Pairwise fun f g => f.off + f.width ≤ g.off) ∧
    (∀ f ∈ (frame a s).1, f.off + f.width ≤ (frame a s).2) ∧
    (∀ f ∈ (frame a s).1, ∃ t, (f.name, t) ∈ (if f.result then s.results else s.params) ∧
      (f.part, f.width) ∈ t.parts a ∧ f.off % t.align a = 0) := by
  have h1 := place_ordered a false s.params 0
  have hm : (place a false 0 s.params).2 ≤ (if s.results = [] then (place a false 0 s.params).2
      else alignUp (place a false 0 s.params).2 a.word) := by
    split
    · exact le_refl _
    · exact le_alignUp _ a.word_pos
  have h2 := place_ordered a true s.results (if s.results = [] then (place a false 0 s.params).2
      else alignUp (place a false 0 s.params).2 a.word)
  have h := h1.1.append (h2.1.weaken hm) h1.2 (hm.trans h2.2)
  refine ⟨h.2, fun f hf => (h.1 f hf).2, fun f hf => ?_⟩
  rcases List.mem_append.1 hf with hf | hf
  · obtain ⟨e, r⟩ := place_field a false _ _ f hf
    simpa [e] using r
  · obtain ⟨e, r⟩ := place_field a true _ _ f hf
    simpa [e] using r

/-- `F32toi16` on amd64: seven fields, the last at 48, in 52 bytes. -/
example : (frame .amd64 ⟨[("input", .slice), ("output", .slice), ("scale", .f32)], []⟩).2 = 52 ∧
    (frame .amd64 ⟨[("input", .slice), ("output", .slice), ("scale", .f32)], []⟩).1.map (·.off) =
      [0, 8, 16, 24, 32, 40, 48] := by decide

/-! ## What the assembly defines -/

/-- A symbol is linked when the `.s` files of the architecture define it exactly once. -/
def Linked (a : Arch) (n : String) : Prop := ((texts a).map (·.name)).count n = 1

instance (a : Arch) (n : String) : Decidable (Linked a n) := by unfold Linked; infer_instance

/-- The property in full: every function declared without a body is defined exactly once on every
architecture that has assembly. -/
def AllLinked : Prop := ∀ a, ∀ d ∈ declared, Linked a d.1

/-- C94, violated: the property in full does not hold.  On 386 and ARM nothing defines `VMinF32`, and
`I16ToBLE` is defined on amd64 only: a program calling one of them does not link there. -/
theorem C94_violated : ¬ AllLinked ∧
    (∀ a, Linked a "I16ToBLE" ↔ a = .amd64) ∧ (∀ a, Linked a "VMinF32" ↔ a = .amd64 ∨ a = .arm64) := by
  refine ⟨fun h => absurd (h .arm ("VMinF32", ⟨[("input", .slice)], [("ret", .f32)]⟩) (by decide))
    (by decide), ?_, ?_⟩ <;> intro a <;> cases a <;> decide

/-- C94, the part that holds: every other declared function is defined exactly once on each of the four
architectures; on amd64 all are. -/
theorem C94_linked_partial : (∀ d ∈ declared, Linked .amd64 d.1) ∧
    ∀ a, ∀ d ∈ declared, d.1 ≠ "I16ToBLE" → d.1 ≠ "VMinF32" → Linked a d.1 := by
  refine ⟨by decide, fun a => ?_⟩
  cases a <;> decide

/-- C94: the assembly defines nothing that Go does not declare, and Go declares each function once. -/
theorem C94_declared : (∀ a, ∀ t ∈ texts a, t.name ∈ declared.map Prod.fst) ∧
    (declared.map Prod.fst).Nodup := by
  refine ⟨fun a => ?_, by decide⟩
  cases a <;> decide

/-- C94, violated on Windows: with stub_windows.go the package declares `Ui8tof32` twice, which Go rejects. -/
theorem C94_windows_violated : ¬ ((declared ++ windowsDeclared).map Prod.fst).Nodup := by decide

/-! ## What the assembly accesses -/

/-- An access of a function with a signature is sound: it covers exactly one field of the frame, and what is
loaded is a parameter (a result is not defined on entry). -/
def Sound (a : Arch) (s : Sig) (r : Ref) : Prop :=
  ∃ f ∈ (frame a s).1, f.off = r.off ∧ f.width = r.width ∧ (r.store = false → f.result = false)

instance (a : Arch) (s : Sig) (r : Ref) : Decidable (Sound a s r) := by unfold Sound; infer_instance

/-- C94, accesses: on every architecture every access to the frame of the caller covers exactly one field of
the frame that the Go declaration gives, and loads only from parameters; and where an argument size is
written, it is the size of that frame. -/
theorem C94_accesses (a : Arch) (t : Text) (ht : t ∈ texts a) :
    ∃ s, (t.name, s) ∈ declared ∧ (∀ r ∈ t.refs, Sound a s r) ∧ ∀ n, t.argSize = some n → n = (frame a s).2 := by
  have h : ∀ t ∈ texts a, ∃ d ∈ declared, d.1 = t.name ∧ (∀ r ∈ t.refs, Sound a d.2 r) ∧
      (t.argSize = none ∨ t.argSize = some (frame a d.2).2) := by
    cases a <;> decide +kernel
  obtain ⟨⟨n, s⟩, h1, h2, h3, h4⟩ := h t ht
  simp only at h2
  subst h2
  refine ⟨s, h1, h3, fun n hn => ?_⟩
  rcases h4 with h4 | h4
  · rw [h4] at hn; cases hn
  · rw [h4] at hn; exact (Option.some.inj hn).symm

/-- The offset and the name of an access agree. -/
def Named (a : Arch) (s : Sig) (r : Ref) : Prop :=
  ∃ f ∈ (frame a s).1, f.off = r.off ∧ f.name = r.name ∧ f.part = r.part

instance (a : Arch) (s : Sig) (r : Ref) : Decidable (Named a s r) := by unfold Named; infer_instance

/-- C94, names: the name of every access is the name of what it accesses, except demod_arm.s:92. -/
theorem C94_names_partial (a : Arch) (t : Text) (ht : t ∈ texts a) (r : Ref) (hr : r ∈ t.refs) :
    (∃ s, (t.name, s) ∈ declared ∧ Named a s r) ∨ (a = .arm ∧ t.name = "fmDemodulateAsm" ∧ r.line = 92) := by
  have h : ∀ t ∈ texts a, ∀ r ∈ t.refs, (∃ d ∈ declared, d.1 = t.name ∧ Named a d.2 r) ∨
      (a = .arm ∧ t.name = "fmDemodulateAsm" ∧ r.line = 92) := by
    cases a <;> decide +kernel
  rcases h t ht r hr with ⟨⟨n, s⟩, h1, h2, h3⟩ | h
  · simp only at h2
    subst h2
    exact Or.inl ⟨s, h1, h3⟩
  · exact Or.inr h

/-- C94, names, violated: demod_arm.s:92 writes the result under the name of a parameter, `output_len`. -/
theorem C94_names_violated : ∃ t ∈ texts .arm, ∃ r ∈ t.refs, ∃ s, (t.name, s) ∈ declared ∧ ¬ Named .arm s r ∧
    ∃ f ∈ (frame .arm s).1, f.off = r.off ∧ f.result = true := by
  have h : ∃ t ∈ texts .arm, ∃ r ∈ t.refs, ∃ d ∈ declared, d.1 = t.name ∧ ¬ Named .arm d.2 r ∧
    ∃ f ∈ (frame .arm d.2).1, f.off = r.off ∧ f.result = true := by decide +kernel
  obtain ⟨t, ht, r, hr, ⟨n, s⟩, h1, h2, h3⟩ := h
  simp only at h2
  subst h2
  exact ⟨t, ht, r, hr, s, h1, h3⟩

/-- C94, jumps: a jump at the end of an assembly function goes to a function of the same parameter and result
types, so the frame of the caller is the frame that the target expects. -/
theorem C94_jumps (a : Arch) (t : Text) (ht : t ∈ texts a) (n : String) (hj : t.jump = some n) :
    ∃ s s', (t.name, s) ∈ declared ∧ (n, s') ∈ declared ++ portable ∧ frame a s = frame a s' := by
  have h : ∀ t ∈ texts a, t.jump = none ∨ ∃ d ∈ declared, d.1 = t.name ∧
      ∃ e ∈ declared ++ portable, t.jump = some e.1 ∧ frame a d.2 = frame a e.2 := by
    cases a <;> decide +kernel
  rcases h t ht with h | ⟨⟨m, s⟩, h1, h2, ⟨k, s'⟩, h3, h4, h5⟩
  · rw [h] at hj; cases hj
  · simp only at h2 h4 h5
    subst h2
    rw [h4] at hj
    obtain rfl := Option.some.inj hj
    exact ⟨s, s', h1, h3, h5⟩

/-- The name of the Go version of a function: the suffix `Asm` away, the first letter small. -/
def goName (n : String) : List Char :=
  match n.toList with
  | [] => []
  | c :: l => if l.drop (l.length - 3) = "Asm".toList then c :: l.take (l.length - 3) else c.toLower :: l

/-- C94, targets: a jump to a Go function goes to the Go version of the same function (for `VScaleF32` that
is `vscaleF32`). -/
theorem C94_targets (a : Arch) (t : Text) (ht : t ∈ texts a) (n : String) (hj : t.jump = some n)
    (hn : n ∈ portable.map Prod.fst) :
    n.toList = goName t.name ∨ (t.name = "VScaleF32" ∧ n = "vscaleF32") := by
  have h : ∀ t ∈ texts a, ∀ n ∈ portable.map Prod.fst, t.jump = some n →
      (n.toList = goName t.name ∨ (t.name = "VScaleF32" ∧ n = "vscaleF32")) := by
    cases a <;> decide +kernel
  exact h t ht n hn hj

/-- A function without accesses hands the call on: nothing falls off the end of an empty function. -/
theorem C94_complete (a : Arch) (t : Text) (ht : t ∈ texts a) : t.refs ≠ [] ∨ t.jump ≠ none := by
  revert t
  cases a <;> decide +kernel

/-- The store of the result of `VMaxF32` on ARM is at offset 12: one slice of three words of 4 bytes. -/
example : ∃ t ∈ texts .arm, t.name = "VMaxF32" ∧ ∃ r ∈ t.refs, r.store = true ∧ r.off = 12 := by
  decide +kernel

/-- The jump of `Ui8toc64` on ARM goes to the assembly of `Ui8tof32`. -/
example : ∃ t ∈ texts .arm, t.name = "Ui8toc64" ∧ t.jump = some "Ui8tof32" := by decide +kernel

end Verif.Link
