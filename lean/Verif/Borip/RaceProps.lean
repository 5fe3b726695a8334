import Verif.Borip.RaceModel
import Verif.Borip.ServerProps
import Mathlib.Logic.Relation

/-!
# Property C150: data races in boripserver

The order is that of the Go memory model: the order of the program in each thread, unlocking a mutex before
locking it later, a `go` statement before what it starts, and closing a channel before a receive that
returns because the channel is closed.
-/

namespace Verif.Borip

/-! ## Specification -/

/-- The first event is ordered before the second if it comes earlier. -/
def Orders (a b : MemEv) : Prop :=
  a.thread = b.thread ∨ (∃ d, a.op = .unlock d ∧ b.op = .lock d) ∨ a.op = .spawn b.thread ∨
    ∃ c n, a.op = .close c n ∧ b.op = .received c n

/-- One step of the order between places of an execution. -/
def Sync (tr : List MemEv) (i j : Nat) : Prop :=
  i < j ∧ ∃ a b, tr[i]? = some a ∧ tr[j]? = some b ∧ Orders a b

/-- "Happens before". -/
def HB (tr : List MemEv) : Nat → Nat → Prop := Relation.TransGen (Sync tr)

def Access (o : MemOp) (l : Loc) : Prop := o = .read l ∨ o = .write l

/-- Two threads access the place, at least one of them writes, and nothing orders the accesses. -/
def Race (tr : List MemEv) (l : Loc) : Prop :=
  ∃ i j a b, i < j ∧ tr[i]? = some a ∧ tr[j]? = some b ∧ a.thread ≠ b.thread ∧ Access a.op l ∧ Access b.op l ∧
    (a.op = .write l ∨ b.op = .write l) ∧ ¬ HB tr i j

/-! ## Adding events -/

theorem get_snoc {tr : List MemEv} {e a : MemEv} {i : Nat} :
    (tr ++ [e])[i]? = some a ↔ tr[i]? = some a ∨ (i = tr.length ∧ a = e) := by
  rcases Nat.lt_trichotomy i tr.length with h | h | h
  · rw [List.getElem?_append_left h]
    simp [Nat.ne_of_lt h]
  · subst h
    simp [eq_comm]
  · rw [List.getElem?_eq_none (by simp; omega), List.getElem?_eq_none (by omega)]
    simp
    omega

theorem get_lt {tr : List MemEv} {i : Nat} {a : MemEv} (h : tr[i]? = some a) : i < tr.length := by
  by_contra hc
  rw [List.getElem?_eq_none (by omega)] at h
  cases h

theorem HB.snoc {tr : List MemEv} {i j : Nat} (h : HB tr i j) (e : MemEv) : HB (tr ++ [e]) i j := by
  refine Relation.TransGen.mono ?_ i j h
  rintro a b ⟨h1, x, y, h2, h3, h4⟩
  exact ⟨h1, x, y, get_snoc.2 (.inl h2), get_snoc.2 (.inl h3), h4⟩

/-- What the thread has been ordered after. -/
def Known (tr : List MemEv) (t : Thread) (i : Nat) : Prop :=
  ∃ j a, tr[j]? = some a ∧ (i = j ∨ HB tr i j) ∧ (a.thread = t ∨ a.op = .spawn t)

/-- What comes before some unlocking of the mutex. -/
def Released (tr : List MemEv) (d i : Nat) : Prop :=
  ∃ j a, tr[j]? = some a ∧ (i = j ∨ HB tr i j) ∧ a.op = .unlock d

theorem hb_last {tr : List MemEv} {e a : MemEv} {i j : Nat} (h1 : tr[j]? = some a) (h2 : i = j ∨ HB tr i j) (h3 : Orders a e) :
    HB (tr ++ [e]) i tr.length := by
  have hs : Sync (tr ++ [e]) j tr.length := ⟨get_lt h1, a, e, get_snoc.2 (.inl h1), get_snoc.2 (.inr ⟨rfl, rfl⟩), h3⟩
  rcases h2 with rfl | h2
  · exact .single hs
  · exact .tail (h2.snoc e) hs

theorem Known.hb {tr : List MemEv} {e : MemEv} {i : Nat} (h : Known tr e.thread i) : HB (tr ++ [e]) i tr.length := by
  obtain ⟨j, a, h1, h2, h3⟩ := h
  exact hb_last h1 h2 (h3.elim .inl fun h => .inr (.inr (.inl h)))

theorem Released.hb {tr : List MemEv} {e : MemEv} {d i : Nat} (h : Released tr d i) (he : e.op = .lock d) :
    HB (tr ++ [e]) i tr.length := by
  obtain ⟨j, a, h1, h2, h3⟩ := h
  exact hb_last h1 h2 (.inr (.inl ⟨d, h3, he⟩))

theorem Known.snoc {tr : List MemEv} {t : Thread} {i : Nat} (h : Known tr t i) (e : MemEv) : Known (tr ++ [e]) t i := by
  obtain ⟨j, a, h1, h2, h3⟩ := h
  exact ⟨j, a, get_snoc.2 (.inl h1), h2.imp id fun h => h.snoc e, h3⟩

theorem Released.snoc {tr : List MemEv} {d i : Nat} (h : Released tr d i) (e : MemEv) : Released (tr ++ [e]) d i := by
  obtain ⟨j, a, h1, h2, h3⟩ := h
  exact ⟨j, a, get_snoc.2 (.inl h1), h2.imp id fun h => h.snoc e, h3⟩

theorem Known.append {tr : List MemEv} {t : Thread} {i : Nat} (h : Known tr t i) (l : List MemEv) : Known (tr ++ l) t i := by
  induction l generalizing tr with
  | nil => simpa using h
  | cons e l ih =>
    rw [← List.singleton_append, ← List.append_assoc]
    exact ih (h.snoc e)

theorem known_last (tr : List MemEv) {e : MemEv} {t : Thread} {i : Nat} (h : i = tr.length ∨ HB (tr ++ [e]) i tr.length)
    (he : e.thread = t ∨ e.op = .spawn t) : Known (tr ++ [e]) t i :=
  ⟨tr.length, e, get_snoc.2 (.inr ⟨rfl, rfl⟩), h, he⟩

theorem released_last (tr : List MemEv) {e : MemEv} {d i : Nat} (h : i = tr.length ∨ HB (tr ++ [e]) i tr.length)
    (he : e.op = .unlock d) : Released (tr ++ [e]) d i :=
  ⟨tr.length, e, get_snoc.2 (.inr ⟨rfl, rfl⟩), h, he⟩

/-- Accesses to the place that do not go together are ordered. -/
def Clean (tr : List MemEv) (l : Loc) : Prop :=
  ∀ i j a b, i < j → tr[i]? = some a → tr[j]? = some b → Access a.op l → Access b.op l →
    (a.op = .write l ∨ b.op = .write l) → HB tr i j

theorem Clean.no_race {tr : List MemEv} {l : Loc} (h : Clean tr l) : ¬ Race tr l := by
  rintro ⟨i, j, a, b, h1, h2, h3, -, h4, h5, h6, h7⟩
  exact h7 (h i j a b h1 h2 h3 h4 h5 h6)

theorem Clean.snoc {tr : List MemEv} {l : Loc} (h : Clean tr l) {e : MemEv}
    (he : ∀ i a, tr[i]? = some a → Access a.op l → Access e.op l → (a.op = .write l ∨ e.op = .write l) → HB (tr ++ [e]) i tr.length) :
    Clean (tr ++ [e]) l := by
  intro i j a b hij hi hj h1 h2 h3
  rcases get_snoc.1 hj with hj' | ⟨rfl, rfl⟩
  · rcases get_snoc.1 hi with hi | ⟨rfl, rfl⟩
    · exact (h i j a b hij hi hj' h1 h2 h3).snoc e
    · have := get_lt hj'
      omega
  · rcases get_snoc.1 hi with hi | ⟨rfl, rfl⟩
    · exact he i a hi h1 h2 h3
    · omega

/-- A place only one thread accesses. -/
theorem clean_of_single {tr : List MemEv} {l : Loc} {t : Thread} (h : ∀ e ∈ tr, Access e.op l → e.thread = t) : Clean tr l := by
  intro i j a b hij hi hj h1 h2 _
  exact .single ⟨hij, a, b, hi, hj, .inl ((h a (List.mem_of_getElem? hi) h1).trans (h b (List.mem_of_getElem? hj) h2).symm)⟩

/-! ## Devices -/

/-- An access to the changing fields of the device. -/
def DevAccess (o : MemOp) (d : Nat) : Prop := Access o (.inUse d) ∨ Access o (.rtlDev d)

def DevWrite (o : MemOp) (d : Nat) : Prop := o = .write (.inUse d) ∨ o = .write (.rtlDev d)

theorem DevWrite.access {o : MemOp} {d : Nat} (h : DevWrite o d) : DevAccess o d := h.imp .inr .inr

/-- Outside the mutex: writes come before some unlocking, reads too unless an owner has made them, and
the owners know the writes. -/
structure DevInv (own : Nat → Prop) (tr : List MemEv) (d : Nat) : Prop where
  inUse : Clean tr (.inUse d)
  rtlDev : Clean tr (.rtlDev d)
  writes : ∀ i a, tr[i]? = some a → DevWrite a.op d → Released tr d i
  all : ∀ i a, tr[i]? = some a → DevAccess a.op d → Released tr d i ∨ ∃ c, own c ∧ Known tr (.conn c) i
  owner : ∀ c, own c → ∀ i a, tr[i]? = some a → DevWrite a.op d → Known tr (.conn c) i

/-- Inside the mutex, where the connection may write. -/
structure DevIn (c : Nat) (tr : List MemEv) (d : Nat) : Prop where
  inUse : Clean tr (.inUse d)
  rtlDev : Clean tr (.rtlDev d)
  all : ∀ i a, tr[i]? = some a → DevAccess a.op d → Known tr (.conn c) i

theorem DevInv.congr {own own' : Nat → Prop} {tr : List MemEv} {d : Nat} (h : DevInv own tr d) (hc : ∀ c, own c ↔ own' c) : DevInv own' tr d := by
  have : own = own' := funext fun c => propext (hc c)
  rwa [← this]

/-- An event that leaves the device alone, or reads it as an owner. -/
def Mild (own : Nat → Prop) (d : Nat) (e : MemEv) : Prop :=
  ¬ DevAccess e.op d ∨ (¬ DevWrite e.op d ∧ ∃ c, own c ∧ e.thread = .conn c)

theorem DevInv.mild {own : Nat → Prop} {tr : List MemEv} {d : Nat} (h : DevInv own tr d) {e : MemEv} (he : Mild own d e) :
    DevInv own (tr ++ [e]) d := by
  have hw : ¬ DevWrite e.op d := he.elim (fun h1 h2 => h1 h2.access) And.left
  have key : ∀ i a, tr[i]? = some a → DevWrite a.op d → DevAccess e.op d → HB (tr ++ [e]) i tr.length := by
    intro i a hi ha hd
    rcases he with he | ⟨-, c, hc, ht⟩
    · exact absurd hd he
    · exact Known.hb (ht ▸ h.owner c hc i a hi ha)
  refine ⟨h.inUse.snoc fun i a hi _ h2 h3 => ?_, h.rtlDev.snoc fun i a hi _ h2 h3 => ?_, fun i a hi ha => ?_, fun i a hi ha => ?_,
    fun c hc i a hi ha => ?_⟩
  · rcases h3 with h3 | h3
    · exact key i a hi (.inl h3) (.inl h2)
    · exact absurd (.inl h3) hw
  · rcases h3 with h3 | h3
    · exact key i a hi (.inr h3) (.inr h2)
    · exact absurd (.inr h3) hw
  · rcases get_snoc.1 hi with hi | ⟨rfl, rfl⟩
    · exact (h.writes i a hi ha).snoc e
    · exact absurd ha hw
  · rcases get_snoc.1 hi with hi | ⟨rfl, rfl⟩
    · exact (h.all i a hi ha).imp (fun h => h.snoc e) fun ⟨c, h1, h2⟩ => ⟨c, h1, h2.snoc e⟩
    · rcases he with he | ⟨-, c, hc, ht⟩
      · exact absurd ha he
      · exact .inr ⟨c, hc, known_last tr (.inl rfl) (.inl ht)⟩
  · rcases get_snoc.1 hi with hi | ⟨rfl, rfl⟩
    · exact (h.owner c hc i a hi ha).snoc e
    · exact absurd ha hw

theorem DevInv.milds {own : Nat → Prop} {tr : List MemEv} {d : Nat} (h : DevInv own tr d) {l : List MemEv} (hl : ∀ e ∈ l, Mild own d e) :
    DevInv own (tr ++ l) d := by
  induction l generalizing tr with
  | nil => simpa using h
  | cons e l ih =>
    rw [← List.singleton_append, ← List.append_assoc]
    exact ih (h.mild (hl e List.mem_cons_self)) fun x hx => hl x (List.mem_cons_of_mem _ hx)

/-- Taking the mutex for reading: for as long, the connection is like an owner. -/
theorem DevInv.lock {own : Nat → Prop} {tr : List MemEv} {d c : Nat} (h : DevInv own tr d) :
    DevInv (fun x => own x ∨ x = c) (tr ++ [⟨.conn c, .lock d⟩]) d := by
  have h1 := h.mild (e := ⟨.conn c, .lock d⟩) (.inl (by simp [DevAccess, Access]))
  refine ⟨h1.inUse, h1.rtlDev, h1.writes, fun i a hi ha => (h1.all i a hi ha).imp id fun ⟨x, hx, hk⟩ => ⟨x, .inl hx, hk⟩, ?_⟩
  rintro x (hx | rfl) i a hi ha
  · exact h1.owner x hx i a hi ha
  · rcases get_snoc.1 hi with hi | ⟨rfl, rfl⟩
    · exact known_last tr (.inr ((h.writes i a hi ha).hb rfl)) (.inl rfl)
    · simp [DevWrite] at ha

theorem DevInv.unlock {own : Nat → Prop} {tr : List MemEv} {d c : Nat} (h : DevInv (fun x => own x ∨ x = c) tr d) :
    DevInv own (tr ++ [⟨.conn c, .unlock d⟩]) d := by
  have h1 := h.mild (e := ⟨.conn c, .unlock d⟩) (.inl (by simp [DevAccess, Access]))
  refine ⟨h1.inUse, h1.rtlDev, h1.writes, fun i a hi ha => ?_, fun x hx => h1.owner x (.inl hx)⟩
  rcases get_snoc.1 hi with hi | ⟨rfl, rfl⟩
  · rcases h.all i a hi ha with hr | ⟨x, hx | rfl, hk⟩
    · exact .inl (hr.snoc _)
    · exact .inr ⟨x, hx, hk.snoc _⟩
    · exact .inl (released_last tr (.inr hk.hb) rfl)
  · simp [DevAccess, Access] at ha

/-- Taking the mutex when nobody else owns the device. -/
theorem DevInv.enter {own : Nat → Prop} {tr : List MemEv} {d c : Nat} (h : DevInv own tr d) (ho : ∀ x, own x → x = c) :
    DevIn c (tr ++ [⟨.conn c, .lock d⟩]) d := by
  have h1 := h.mild (e := ⟨.conn c, .lock d⟩) (.inl (by simp [DevAccess, Access]))
  refine ⟨h1.inUse, h1.rtlDev, fun i a hi ha => ?_⟩
  rcases get_snoc.1 hi with hi | ⟨rfl, rfl⟩
  · rcases h.all i a hi ha with hr | ⟨x, hx, hk⟩
    · exact known_last tr (.inr (hr.hb rfl)) (.inl rfl)
    · rw [ho x hx] at hk
      exact hk.snoc _
  · simp [DevAccess, Access] at ha

theorem DevIn.inside {c : Nat} {tr : List MemEv} {d : Nat} (h : DevIn c tr d) (o : MemOp) : DevIn c (tr ++ [⟨.conn c, o⟩]) d := by
  refine ⟨h.inUse.snoc fun i a hi h1 _ _ => Known.hb (h.all i a hi (.inl h1)), h.rtlDev.snoc fun i a hi h1 _ _ => Known.hb (h.all i a hi (.inr h1)),
    fun i a hi ha => ?_⟩
  rcases get_snoc.1 hi with hi | ⟨rfl, rfl⟩
  · exact (h.all i a hi ha).snoc _
  · exact known_last tr (.inl rfl) (.inl rfl)

theorem DevIn.leave {c : Nat} {tr : List MemEv} {d : Nat} (h : DevIn c tr d) {own : Nat → Prop} (ho : ∀ x, own x → x = c) :
    DevInv own (tr ++ [⟨.conn c, .unlock d⟩]) d := by
  have h1 := h.inside (.unlock d)
  have key : ∀ i a, (tr ++ [⟨.conn c, .unlock d⟩])[i]? = some a → DevAccess a.op d → Released (tr ++ [⟨.conn c, .unlock d⟩]) d i := by
    intro i a hi ha
    rcases get_snoc.1 hi with hi | ⟨rfl, rfl⟩
    · exact released_last tr (.inr (Known.hb (h.all i a hi ha))) rfl
    · simp [DevAccess, Access] at ha
  exact ⟨h1.inUse, h1.rtlDev, fun i a hi ha => key i a hi ha.access, fun i a hi ha => .inl (key i a hi ha),
    fun x hx i a hi ha => ho x hx ▸ h1.all i a hi ha.access⟩

/-! ## The map of devices -/

/-- Only `init` writes it, and the connections know that. -/
structure TableInv (there : Nat → Prop) (tr : List MemEv) : Prop where
  clean : Clean tr .table
  first : ∀ i a, tr[i]? = some a → a.op = .write .table → i = 0
  accept : Known tr .accept 0
  conn : ∀ c, there c → Known tr (.conn c) 0

theorem TableInv.append {there : Nat → Prop} {tr : List MemEv} (h : TableInv there tr) {l : List MemEv}
    (hl : ∀ e ∈ l, e.op ≠ .write .table ∧ (e.op = .read .table → ∃ c, there c ∧ e.thread = .conn c)) : TableInv there (tr ++ l) := by
  induction l generalizing tr with
  | nil => simpa using h
  | cons e l ih =>
    rw [← List.singleton_append, ← List.append_assoc]
    refine ih ?_ fun x hx => hl x (List.mem_cons_of_mem _ hx)
    obtain ⟨h1, h2⟩ := hl e List.mem_cons_self
    refine ⟨h.clean.snoc fun i a hi ha he hw => ?_, fun i a hi ha => ?_, h.accept.snoc e, fun c hc => (h.conn c hc).snoc e⟩
    · have hw' : a.op = .write .table := hw.resolve_right h1
      have hr : e.op = .read .table := he.resolve_right h1
      obtain ⟨c, hc, ht⟩ := h2 hr
      rw [h.first i a hi hw']
      exact Known.hb (ht ▸ h.conn c hc)
    · rcases get_snoc.1 hi with hi | ⟨rfl, rfl⟩
      · exact h.first i a hi ha
      · exact absurd ha h1

/-- A new connection. -/
theorem TableInv.spawn {there there' : Nat → Prop} {tr : List MemEv} (h : TableInv there tr) {c : Nat} (ht : ∀ x, there' x → there x ∨ x = c) :
    TableInv there' (tr ++ [⟨.accept, .spawn (.conn c)⟩]) := by
  have h1 := h.append (l := [⟨.accept, .spawn (.conn c)⟩]) (by simp)
  refine ⟨h1.clean, h1.first, h1.accept, fun x hx => ?_⟩
  rcases ht x hx with hx | rfl
  · exact h1.conn x hx
  · exact known_last tr (.inr (Known.hb h.accept)) (.inr rfl)

/-! ## The variables of a stream -/

/-- Nothing uses the variables of a stream that has not been started, and the thread of a stream that has
been started knows all their uses. -/
structure PacketInv (streams : Nat → Nat) (tr : List MemEv) (c n : Nat) : Prop where
  clean : Clean tr (.packet c n)
  fresh : streams c ≤ n → ∀ e ∈ tr, ¬ Access e.op (.packet c n)
  known : n < streams c → ∀ i a, tr[i]? = some a → Access a.op (.packet c n) → Known tr (.stream c n) i

theorem PacketInv.append {streams : Nat → Nat} {tr : List MemEv} {c n : Nat} (h : PacketInv streams tr c n) {l : List MemEv}
    (hl : ∀ e ∈ l, Access e.op (.packet c n) → n < streams c ∧ e.thread = .stream c n) : PacketInv streams (tr ++ l) c n := by
  induction l generalizing tr with
  | nil => simpa using h
  | cons e l ih =>
    rw [← List.singleton_append, ← List.append_assoc]
    refine ih ?_ fun x hx => hl x (List.mem_cons_of_mem _ hx)
    have h1 := hl e List.mem_cons_self
    refine ⟨h.clean.snoc fun i a hi ha he _ => ?_, fun hn x hx => ?_, fun hn i a hi ha => ?_⟩
    · obtain ⟨h2, h3⟩ := h1 he
      exact Known.hb (h3 ▸ h.known h2 i a hi ha)
    · rcases List.mem_append.1 hx with hx | hx
      · exact h.fresh hn x hx
      · rw [List.mem_singleton] at hx
        subst hx
        intro ha
        have := (h1 ha).1
        omega
    · rcases get_snoc.1 hi with hi | ⟨rfl, rfl⟩
      · exact (h.known hn i a hi ha).snoc e
      · exact known_last tr (.inl rfl) (.inl (h1 ha).2)

theorem clean_append_none {tr : List MemEv} {l : Loc} (h : ∀ e ∈ tr, ¬ Access e.op l) : Clean tr l := by
  intro i j a b _ hi _ ha _ _
  exact absurd ha (h a (List.mem_of_getElem? hi))

/-- A new stream: its variables are written by the connection before the thread is started. -/
theorem PacketInv.start {streams : Nat → Nat} {tr : List MemEv} {c n : Nat} (h : PacketInv streams tr c n) (hn : streams c ≤ n)
    {l : List MemEv} (hl : ∀ e ∈ l, e.thread = .conn c) {streams' : Nat → Nat} (hs : n < streams' c) :
    PacketInv streams' (tr ++ (l ++ [⟨.conn c, .spawn (.stream c n)⟩])) c n := by
  have hk : ∀ e ∈ tr ++ l, Access e.op (.packet c n) → e.thread = .conn c := by
    intro e he ha
    rcases List.mem_append.1 he with he | he
    · exact absurd ha (h.fresh hn e he)
    · exact hl e he
  have hc : Clean (tr ++ l) (.packet c n) := clean_of_single hk
  rw [← List.append_assoc]
  refine ⟨hc.snoc fun i a _ _ he _ => by simp [Access] at he, fun h2 => by omega, fun _ i a hi ha => ?_⟩
  rcases get_snoc.1 hi with hi | ⟨rfl, rfl⟩
  · refine known_last _ (.inr (Known.hb ⟨i, a, hi, .inl rfl, .inl (hk a (List.mem_of_getElem? hi) ha)⟩)) (.inr rfl)
  · simp [Access] at ha

/-! ## The server -/

structure RInv (r : RServer) : Prop where
  srv : Inv r.srv
  dev : ∀ d, DevInv (fun c => Unclosed r.srv.log c d) r.trace d
  table : TableInv (fun c => (r.srv.conns c).phase ≠ .absent) r.trace
  packet : ∀ c n, PacketInv r.streams r.trace c n
  async : ∀ c, (r.srv.conns c).async = true → 0 < r.streams c
  single : ∀ e ∈ r.trace, ∀ c, Access e.op (.dev c) ∨ Access e.op (.dest c) → e.thread = .conn c

/-- What every event of a step that starts no stream satisfies. -/
def RFits (r : RServer) (e : MemEv) : Prop :=
  (e.op ≠ .write .table ∧ (e.op = .read .table → ∃ c, (r.srv.conns c).phase ≠ .absent ∧ e.thread = .conn c)) ∧
  (∀ c n, Access e.op (.packet c n) → n < r.streams c ∧ e.thread = .stream c n) ∧
  ∀ c, Access e.op (.dev c) ∨ Access e.op (.dest c) → e.thread = .conn c

theorem RInv.extend {r : RServer} (h : RInv r) {s : Server} {l : List MemEv} (hs : Inv s)
    (hd : ∀ d, DevInv (fun c => Unclosed s.log c d) (r.trace ++ l) d)
    (hp : ∀ c, (s.conns c).phase ≠ .absent → (r.srv.conns c).phase ≠ .absent)
    (ha : ∀ c, (s.conns c).async = true → (r.srv.conns c).async = true)
    (hl : ∀ e ∈ l, RFits r e) : RInv ⟨s, r.streams, r.trace ++ l⟩ where
  srv := hs
  dev := hd
  table := by
    have h1 := h.table.append fun e he => (hl e he).1
    exact ⟨h1.clean, h1.first, h1.accept, fun c hc => h1.conn c (hp c hc)⟩
  packet := fun c n => (h.packet c n).append fun e he => (hl e he).2.1 c n
  async := fun c hc => h.async c (ha c hc)
  single := by
    intro e he
    rcases List.mem_append.1 he with he | he
    · exact h.single e he
    · exact (hl e he).2.2

theorem RInv.plain {r : RServer} (h : RInv r) {s : Server} {l : List MemEv} (hs : Inv s) (hlog : s.log = r.srv.log)
    (hp : ∀ c, (s.conns c).phase ≠ .absent → (r.srv.conns c).phase ≠ .absent)
    (ha : ∀ c, (s.conns c).async = true → (r.srv.conns c).async = true)
    (hl : ∀ e ∈ l, RFits r e ∧ ∀ d, Mild (fun c => Unclosed r.srv.log c d) d e) : RInv ⟨s, r.streams, r.trace ++ l⟩ :=
  h.extend hs (fun d => hlog ▸ (h.dev d).milds fun e he => (hl e he).2 d) hp ha fun e he => (hl e he).1

/-- Only the given connection changes. -/
theorem frame_set {s : Server} {c : Nat} {x : Conn} (hp : x.phase ≠ .absent → (s.conns c).phase ≠ .absent)
    (ha : x.async = true → (s.conns c).async = true) :
    (∀ c', ((s.setConn c x).conns c').phase ≠ .absent → (s.conns c').phase ≠ .absent) ∧
    ∀ c', ((s.setConn c x).conns c').async = true → (s.conns c').async = true := by
  refine ⟨fun c' => ?_, fun c' => ?_⟩
  · simp only [Server.setConn]
    by_cases hc : c' = c
    · subst hc; rw [Function.update_self]; exact hp
    · rw [Function.update_of_ne hc]; exact id
  · simp only [Server.setConn]
    by_cases hc : c' = c
    · subst hc; rw [Function.update_self]; exact ha
    · rw [Function.update_of_ne hc]; exact id

theorem RInv.set {r : RServer} (h : RInv r) {c : Nat} {x : Conn} {l : List MemEv} (hs : Inv (r.srv.setConn c x))
    (hp : x.phase ≠ .absent → (r.srv.conns c).phase ≠ .absent) (ha : x.async = true → (r.srv.conns c).async = true)
    (hl : ∀ e ∈ l, RFits r e ∧ ∀ d, Mild (fun c => Unclosed r.srv.log c d) d e) : RInv ⟨r.srv.setConn c x, r.streams, r.trace ++ l⟩ :=
  h.plain hs rfl (frame_set hp ha).1 (frame_set hp ha).2 hl

/-- A quiet event: one that touches nothing but what belongs to its connection. -/
theorem quiet_event {r : RServer} {c : Nat} {o : MemOp} (h1 : ∀ d, ¬ DevAccess o d) (h2 : ¬ Access o .table)
    (h3 : ∀ c n, ¬ Access o (.packet c n)) (h4 : ∀ c', Access o (.dev c') ∨ Access o (.dest c') → c' = c) :
    RFits r ⟨.conn c, o⟩ ∧ ∀ d, Mild (fun c => Unclosed r.srv.log c d) d ⟨.conn c, o⟩ :=
  ⟨⟨⟨fun h => h2 (.inr h), fun h => absurd (.inl h) h2⟩, fun c n h => absurd h (h3 c n), fun c' h => by rw [h4 c' h]⟩, fun d => .inl (h1 d)⟩

theorem ev_closeChan {r : RServer} (c c' : Nat) : RFits r ⟨.conn c, .read (.closeChan c')⟩ ∧ ∀ d, Mild (fun c => Unclosed r.srv.log c d) d ⟨.conn c, .read (.closeChan c')⟩ :=
  quiet_event (by simp [DevAccess, Access]) (by simp [Access]) (by simp [Access]) (by simp [Access])

theorem ev_close {r : RServer} (c c' n : Nat) : RFits r ⟨.conn c, .close c' n⟩ ∧ ∀ d, Mild (fun c => Unclosed r.srv.log c d) d ⟨.conn c, .close c' n⟩ :=
  quiet_event (by simp [DevAccess, Access]) (by simp [Access]) (by simp [Access]) (by simp [Access])

theorem ev_readDev {r : RServer} (c : Nat) : RFits r ⟨.conn c, .read (.dev c)⟩ ∧ ∀ d, Mild (fun c => Unclosed r.srv.log c d) d ⟨.conn c, .read (.dev c)⟩ :=
  quiet_event (by simp [DevAccess, Access]) (by simp [Access]) (by simp [Access]) (by simp [Access, eq_comm])

theorem ev_writeDev {r : RServer} (c : Nat) : RFits r ⟨.conn c, .write (.dev c)⟩ ∧ ∀ d, Mild (fun c => Unclosed r.srv.log c d) d ⟨.conn c, .write (.dev c)⟩ :=
  quiet_event (by simp [DevAccess, Access]) (by simp [Access]) (by simp [Access]) (by simp [Access, eq_comm])

theorem ev_readDest {r : RServer} (c : Nat) : RFits r ⟨.conn c, .read (.dest c)⟩ ∧ ∀ d, Mild (fun c => Unclosed r.srv.log c d) d ⟨.conn c, .read (.dest c)⟩ :=
  quiet_event (by simp [DevAccess, Access]) (by simp [Access]) (by simp [Access]) (by simp [Access, eq_comm])

theorem ev_writeDest {r : RServer} (c : Nat) : RFits r ⟨.conn c, .write (.dest c)⟩ ∧ ∀ d, Mild (fun c => Unclosed r.srv.log c d) d ⟨.conn c, .write (.dest c)⟩ :=
  quiet_event (by simp [DevAccess, Access]) (by simp [Access]) (by simp [Access]) (by simp [Access, eq_comm])

/-- The use of a device the connection has. -/
theorem ev_rtlDev {r : RServer} (c d : Nat) (h : Unclosed r.srv.log c d) :
    RFits r ⟨.conn c, .read (.rtlDev d)⟩ ∧ ∀ d', Mild (fun c => Unclosed r.srv.log c d') d' ⟨.conn c, .read (.rtlDev d)⟩ := by
  refine ⟨by simp [RFits, Access], fun d' => ?_⟩
  by_cases hd : d' = d
  · subst hd
    exact .inr ⟨by simp [DevWrite], c, h, rfl⟩
  · exact .inl (by simp [DevAccess, Access, Ne.symm hd])

theorem ev_table {r : RServer} (c : Nat) (h : (r.srv.conns c).phase ≠ .absent) :
    RFits r ⟨.conn c, .read .table⟩ ∧ ∀ d', Mild (fun c => Unclosed r.srv.log c d') d' ⟨.conn c, .read .table⟩ :=
  ⟨by simpa [RFits, Access] using h, fun d => .inl (by simp [DevAccess, Access])⟩

theorem RInv.has {r : RServer} (h : RInv r) {c d : Nat} (hd : (r.srv.conns c).dev = some d) (hp : (r.srv.conns c).phase ≠ .gone) :
    Unclosed r.srv.log c d := (h.srv.log c d).2 (.inr ⟨hd, hp⟩)

/-- The events of a section under the mutex satisfy everything but `Mild`. -/
theorem fits_section {r : RServer} {c : Nat} {o : MemOp} (h : (∃ d, o = .lock d) ∨ (∃ d, o = .unlock d) ∨ ∃ d, DevAccess o d) :
    RFits r ⟨.conn c, o⟩ := by
  rcases h with ⟨d, rfl⟩ | ⟨d, rfl⟩ | ⟨d, (rfl | rfl) | rfl | rfl⟩ <;> simp [RFits, Access]

theorem mild_other {own : Nat → Prop} {d' : Nat} {t : Thread} {o : MemOp} (h : ¬ DevAccess o d') : Mild own d' ⟨t, o⟩ := .inl h

/-- Looking at a device under the mutex. -/
theorem DevInv.look {own : Nat → Prop} {tr : List MemEv} {d d' c : Nat} {l : Loc} (h : DevInv own tr d) (hl : l = .inUse d' ∨ l = .rtlDev d') :
    DevInv own (tr ++ [⟨.conn c, .lock d'⟩, ⟨.conn c, .read l⟩, ⟨.conn c, .unlock d'⟩]) d := by
  by_cases hd : d = d'
  · subst hd
    have h1 := ((h.lock (c := c)).mild (e := ⟨.conn c, .read l⟩) (.inr ⟨by simp [DevWrite], c, .inr rfl, rfl⟩)).unlock
    simpa using h1
  · refine h.milds fun e he => .inl ?_
    simp only [List.mem_cons, List.not_mem_nil, or_false] at he
    rcases he with rfl | rfl | rfl
    · simp [DevAccess, Access]
    · rcases hl with rfl | rfl <;> simp [DevAccess, Access, Ne.symm hd]
    · simp [DevAccess, Access]

theorem rinv_init : RInv RServer.init where
  srv := inv_init
  dev := by
    intro d
    refine ⟨clean_append_none ?_, clean_append_none ?_, fun i a hi ha => ?_, fun i a hi ha => ?_, fun c _ i a hi ha => ?_⟩
    · simp [RServer.init, Access]
    · simp [RServer.init, Access]
    all_goals
      have := List.mem_of_getElem? hi
      simp only [RServer.init, List.mem_cons, List.not_mem_nil, or_false] at this
      rcases this with rfl | rfl <;> simp [DevWrite, DevAccess, Access] at ha
  table := by
    refine ⟨clean_of_single (t := .main) (by simp [RServer.init]), fun i a hi ha => ?_, ?_, fun c hc => by simp [RServer.init, Server.init] at hc⟩
    · match i, hi with
      | 0, _ => rfl
      | 1, hi =>
        simp only [RServer.init, List.getElem?_cons_succ, List.getElem?_cons_zero, Option.some.injEq] at hi
        subst hi
        simp at ha
    · exact ⟨1, ⟨.main, .spawn .accept⟩, rfl, .inr (.single ⟨by decide, _, _, rfl, rfl, .inl rfl⟩), .inr rfl⟩
  packet := by
    intro c n
    refine ⟨clean_append_none (by simp [RServer.init, Access]), fun _ => by simp [RServer.init, Access], fun h => by simp [RServer.init] at h⟩
  async := by simp [RServer.init, Server.init]
  single := by simp [RServer.init, Access]

theorem rinv_connect {r : RServer} (h : RInv r) {c : Nat} (hi : Inv (r.srv.setConn c { r.srv.conns c with phase := .idle })) :
    RInv ⟨r.srv.setConn c { r.srv.conns c with phase := .idle }, r.streams, r.trace ++ r.srv.ops r.streams (.connect c)⟩ := by
  have hl : ∀ e ∈ r.srv.ops r.streams (.connect c), (e.op ≠ .write .table ∧ e.op ≠ .read .table) ∧ (∀ c n, ¬ Access e.op (.packet c n)) ∧
      (∀ c, Access e.op (.dev c) ∨ Access e.op (.dest c) → e.thread = .conn c) ∧ ∀ d, ¬ DevAccess e.op d := by
    simp [Server.ops, onThread, Access, DevAccess]
  refine ⟨hi, fun d => (h.dev d).milds fun e he => .inl ((hl e he).2.2.2 d), ?_, fun c n => (h.packet c n).append fun e he ha => absurd ha ((hl e he).2.1 c n),
    ?_, ?_⟩
  · rw [Server.ops, ← List.singleton_append, ← List.append_assoc]
    refine TableInv.append (h.table.spawn fun x hx => ?_) (by simp [onThread])
    simp only [Server.setConn] at hx
    by_cases hc : x = c
    · exact .inr hc
    · rw [Function.update_of_ne hc] at hx
      exact .inl hx
  · intro x hx
    simp only [Server.setConn] at hx
    by_cases hc : x = c
    · subst hc
      rw [Function.update_self] at hx
      exact h.async x hx
    · rw [Function.update_of_ne hc] at hx
      exact h.async x hx
  · intro e he
    rcases List.mem_append.1 he with he | he
    · exact h.single e he
    · exact (hl e he).2.2.1

/-- GO that starts a stream. -/
theorem rinv_start {r : RServer} (h : RInv r) {c d : Nat} (hp : (r.srv.conns c).phase = .idle) (hd : (r.srv.conns c).dev = some d)
    (hc : (r.srv.conns c).closeChan = .nil) (hi : Inv (r.srv.setConn c { r.srv.conns c with closeChan := .opened, async := true })) :
    RInv ⟨r.srv.setConn c { r.srv.conns c with closeChan := .opened, async := true }, Function.update r.streams c (r.streams c + 1),
      r.trace ++ r.srv.ops r.streams (.go c true)⟩ := by
  have hu := h.has hd (by simp [hp])
  have e1 : r.srv.ops r.streams (.go c true) = onThread (.conn c) [.read (.dest c), .read (.dev c), .read (.closeChan c), .read (.dest c),
      .read (.dev c), .read (.rtlDev d), .write (.closeChan c), .write (.packet c (r.streams c)), .read (.dev c), .read (.rtlDev d)] ++
      [⟨.conn c, .spawn (.stream c (r.streams c))⟩] := by
    simp [Server.ops, Server.goOps, hd, hc, onThread]
  have hl : ∀ e ∈ r.srv.ops r.streams (.go c true), (e.op ≠ .write .table ∧ e.op ≠ .read .table) ∧
      (∀ c' n, Access e.op (.packet c' n) → c' = c ∧ n = r.streams c) ∧
      (∀ c, Access e.op (.dev c) ∨ Access e.op (.dest c) → e.thread = .conn c) := by
    rw [e1]
    simp [onThread, Access, eq_comm]
  refine ⟨hi, fun d' => ?_, ?_, fun c' n => ?_, ?_, ?_⟩
  · refine (h.dev d').milds ?_
    rw [e1]
    intro e he
    simp only [onThread, List.mem_append, List.mem_map, List.mem_singleton] at he
    rcases he with ⟨o, ho, rfl⟩ | rfl
    · by_cases hr : o = .read (.rtlDev d)
      · subst hr
        exact (ev_rtlDev c d hu).2 d'
      · refine mild_other ?_
        simp only [List.mem_cons, List.not_mem_nil, or_false, hr, false_or] at ho
        rcases ho with rfl | rfl | rfl | rfl | rfl | rfl | rfl | rfl <;> simp [DevAccess, Access]
    · exact mild_other (by simp [DevAccess, Access])
  · have h1 := h.table.append fun e he => ⟨(hl e he).1.1, fun hr => absurd hr (hl e he).1.2⟩
    refine ⟨h1.clean, h1.first, h1.accept, fun x hx => h1.conn x ?_⟩
    by_cases hxc : x = c
    · subst hxc
      simp [hp]
    · simpa only [Server.setConn, Function.update_of_ne hxc] using hx
  · by_cases hcn : c' = c ∧ n = r.streams c
    · obtain ⟨rfl, rfl⟩ := hcn
      rw [e1]
      exact (h.packet c' _).start (Nat.le_refl _) (by simp [onThread]) (by simp)
    · have h1 := (h.packet c' n).append fun e he ha => absurd ((hl e he).2.1 c' n ha) hcn
      by_cases hc' : c' = c
      · subst hc'
        have hn : n ≠ r.streams c' := fun hn => hcn ⟨rfl, hn⟩
        refine ⟨h1.clean, fun h2 => h1.fresh ?_, fun h2 => h1.known ?_⟩
        · simp at h2
          omega
        · simp at h2
          omega
      · refine ⟨h1.clean, fun h2 => h1.fresh ?_, fun h2 => h1.known ?_⟩
        · simpa [Function.update_of_ne hc'] using h2
        · simpa [Function.update_of_ne hc'] using h2
  · intro x hx
    by_cases hxc : x = c
    · subst hxc
      simp
    · simp only [Server.setConn, Function.update_of_ne hxc] at hx ⊢
      exact h.async x hx
  · intro e he
    rcases List.mem_append.1 he with he | he
    · exact h.single e he
    · exact (hl e he).2.2

/-- Closing the device the connection has. -/
theorem rinv_close {r : RServer} (h : RInv r) {c d : Nat} {x : Conn} {l : List MemEv} (hd : Unclosed r.srv.log c d) (hp : (r.srv.conns c).phase ≠ .absent)
    (ha : x.async = true → (r.srv.conns c).async = true) (hi : Inv ((r.srv.closeDev c d).setConn c x))
    (hl : ∀ e ∈ l, RFits r e ∧ ∀ d own, Mild own d e) :
    RInv ⟨(r.srv.closeDev c d).setConn c x, r.streams, r.trace ++ (⟨.conn c, .read (.dev c)⟩ :: (onThread (.conn c) (r.srv.closeOps d) ++ l))⟩ := by
  have hr : (r.srv.devs d).rtlDev = true := by rw [h.srv.rtl, h.srv.inUse]; exact ⟨c, (h.srv.log c d).1 hd⟩
  have e : r.srv.closeDev c d = { r.srv with devs := Function.update r.srv.devs d ⟨false, false⟩, log := r.srv.log ++ [.closed c d] } := by
    unfold Server.closeDev
    rw [if_neg (by rw [hr]; simp)]
  have eo : onThread (.conn c) (r.srv.closeOps d) = [⟨.conn c, .lock d⟩, ⟨.conn c, .read (.rtlDev d)⟩, ⟨.conn c, .write (.rtlDev d)⟩, ⟨.conn c, .write (.inUse d)⟩,
      ⟨.conn c, .unlock d⟩] := by
    simp [Server.closeOps, hr, onThread]
  have hu : ∀ c', Unclosed r.srv.log c' d → c' = c := fun c' h' => h.srv.unique c' c d ((h.srv.log c' d).1 h') ((h.srv.log c d).1 hd)
  have hlog : ((r.srv.closeDev c d).setConn c x).log = r.srv.log ++ [.closed c d] := by rw [e]; rfl
  have hconns : ((r.srv.closeDev c d).setConn c x).conns = (r.srv.setConn c x).conns := by rw [e]; rfl
  refine h.extend hi (fun d' => ?_) ?_ ?_ ?_
  · rw [← List.singleton_append, ← List.append_assoc]
    have h0 := (h.dev d').mild ((ev_readDev (r := r) c).2 d')
    rw [hlog]
    simp only [unclosed_snoc_closed]
    rw [← List.append_assoc, eo]
    refine DevInv.milds ?_ fun e he => (hl e he).2 d' _
    by_cases hdd : d' = d
    · subst hdd
      have h1 := ((((h0.enter hu).inside (.read (.rtlDev d'))).inside (.write (.rtlDev d'))).inside (.write (.inUse d'))).leave
        (own := fun c_1 => Unclosed r.srv.log c_1 d' ∧ ¬(c_1 = c ∧ d' = d')) (fun x hx => absurd ⟨hu x hx.1, rfl⟩ hx.2)
      simpa using h1
    · refine DevInv.congr (h0.milds fun e he => .inl ?_) fun c' => by simp [hdd]
      simp only [List.mem_cons, List.not_mem_nil, or_false] at he
      rcases he with rfl | rfl | rfl | rfl | rfl <;> simp [DevAccess, Access, Ne.symm hdd]
  · rw [hconns]
    exact (frame_set (fun _ => hp) ha).1
  · rw [hconns]
    exact (frame_set (fun _ => hp) ha).2
  · intro e he
    rw [eo] at he
    simp only [List.mem_cons, List.mem_append, List.not_mem_nil, or_false] at he
    rcases he with rfl | (rfl | rfl | rfl | rfl | rfl) | he
    · exact (ev_readDev c).1
    · exact fits_section (.inl ⟨d, rfl⟩)
    · exact fits_section (.inr (.inr ⟨d, .inr (.inl rfl)⟩))
    · exact fits_section (.inr (.inr ⟨d, .inr (.inr rfl)⟩))
    · exact fits_section (.inr (.inr ⟨d, .inl (.inr rfl)⟩))
    · exact fits_section (.inr (.inl ⟨d, rfl⟩))
    · exact (hl e he).1

theorem mem_onThread {t : Thread} {l : List MemOp} {e : MemEv} (h : e ∈ onThread t l) : ∃ o ∈ l, e = ⟨t, o⟩ := by
  obtain ⟨o, h1, h2⟩ := List.mem_map.1 h
  exact ⟨o, h1, h2.symm⟩

theorem rinv_advance {r : RServer} (h : RInv r) {c : Nat} {s : Server} (hs : r.srv.advance c = some s) :
    RInv ⟨s, r.streams, r.trace ++ r.srv.ops r.streams (.advance c)⟩ := by
  have hi := inv_advance h.srv c hs
  unfold Server.advance at hs
  simp only at hs
  simp only [Server.ops, Server.advanceOps]
  split at hs
  · rename_i k hk
    rw [Option.some.injEq] at hs
    subst hs
    rw [hk]
    refine h.set hi (fun _ => by simp [hk]) id fun e he => ?_
    obtain ⟨o, ho, rfl⟩ := mem_onThread he
    rw [List.mem_singleton] at ho
    subst ho
    exact ev_closeChan c c
  · rename_i k hk
    have hl : ∀ e ∈ onThread (.conn c) (.read (.closeChan c) :: if (r.srv.conns c).closeChan = .opened then [.close c (r.streams c - 1)] else []),
        RFits r e ∧ ∀ d, Mild (fun c => Unclosed r.srv.log c d) d e := by
      intro e he
      obtain ⟨o, ho, rfl⟩ := mem_onThread he
      rcases List.mem_cons.1 ho with rfl | ho
      · exact ev_closeChan c c
      · split at ho
        · rw [List.mem_singleton] at ho
          subst ho
          exact ev_close c c _
        · cases ho
    rw [hk]
    simp only
    split at hs
    · rw [Option.some.injEq] at hs
      subst hs
      exact h.set hi (fun _ => by simp [hk]) id hl
    · rw [Option.some.injEq] at hs
      subst hs
      exact h.plain hi rfl (fun _ h => h) (fun _ h => h) hl
    · rw [Option.some.injEq] at hs
      subst hs
      exact h.plain hi rfl (fun _ h => h) (fun _ h => h) hl
  · rename_i k hk
    rw [hk]
    simp only
    split at hs
    · rename_i hd
      rw [Option.some.injEq] at hs
      subst hs
      refine h.set hi (fun _ => by simp [hk]) (fun h => h) fun e he => ?_
      rw [hd] at he
      obtain ⟨o, ho, rfl⟩ := mem_onThread he
      rw [List.mem_singleton] at ho
      subst ho
      exact ev_readDev c
    · rename_i d hd
      rw [Option.some.injEq] at hs
      subst hs
      rw [hd]
      have := rinv_close h (x := { r.srv.conns c with phase := k.closed, dev := if k = .finish then some d else none })
        (l := onThread (.conn c) (if k = .finish then [] else [.write (.dev c)])) (h.has hd (by simp [hk])) (by simp [hk]) id hi (fun e he => ?_)
      · simpa [onThread] using this
      · obtain ⟨o, ho, rfl⟩ := mem_onThread he
        split at ho
        · cases ho
        · rw [List.mem_singleton] at ho
          subst ho
          exact ⟨(ev_writeDev c).1, fun d own => .inl (by simp [DevAccess, Access])⟩
  · rename_i d hd
    rw [Option.some.injEq] at hs
    subst hs
    rw [hd]
    refine h.set hi (fun _ => by simp [hd]) id fun e he => ?_
    obtain ⟨o, ho, rfl⟩ := mem_onThread he
    simp only [List.mem_cons, List.not_mem_nil, or_false] at ho
    rcases ho with rfl | rfl
    · exact ev_writeDev c
    · exact ev_rtlDev c d ((h.srv.log c d).2 (.inl hd))
  · cases hs

/-- `device.open` under the mutex. -/
theorem rinv_tryOpen {r : RServer} (h : RInv r) {c : Nat} {ok : Bool} {s : Server} (hs : r.srv.tryOpen c ok = some s) :
    RInv ⟨s, r.streams, r.trace ++ r.srv.ops r.streams (.tryOpen c ok)⟩ := by
  have hi := inv_tryOpen h.srv c ok hs
  unfold Server.tryOpen at hs
  simp only at hs
  simp only [Server.ops]
  split at hs
  · rename_i hp
    rw [Option.some.injEq] at hs
    subst hs
    rw [hp]
    refine h.set hi (fun _ => by simp [hp]) id fun e he => ?_
    obtain ⟨o, ho, rfl⟩ := mem_onThread he
    cases ho
  · rename_i d rest hp
    rw [hp]
    simp only
    have hthere : (r.srv.conns c).phase ≠ .absent := by simp [hp]
    split at hs
    · rename_i hno
      rw [Option.some.injEq] at hs
      subst hs
      rw [Server.openOps, if_pos hno]
      have hfr := frame_set (s := r.srv) (c := c) (x := { r.srv.conns c with phase := .opening rest }) (fun _ => hthere) fun h => h
      refine h.extend hi (fun d' => (h.dev d').look (.inl rfl)) hfr.1 hfr.2 fun e he => ?_
      obtain ⟨o, ho, rfl⟩ := mem_onThread he
      simp only [List.mem_cons, List.not_mem_nil, or_false] at ho
      rcases ho with rfl | rfl | rfl
      · exact fits_section (.inl ⟨d, rfl⟩)
      · exact fits_section (.inr (.inr ⟨d, .inl (.inl rfl)⟩))
      · exact fits_section (.inr (.inl ⟨d, rfl⟩))
    · rename_i hno
      rw [Option.some.injEq] at hs
      subst hs
      rw [Server.openOps, if_neg hno]
      have hfr := frame_set (s := r.srv.openDev c d) (c := c) (x := { r.srv.conns c with phase := .opened d }) (fun _ => hthere) fun h => h
      rw [not_or] at hno
      have hfree : ∀ c', ¬ Unclosed r.srv.log c' d := by
        intro c' hc'
        exact hno.1 ((h.srv.inUse d).2 ⟨c', (h.srv.log c' d).1 hc'⟩)
      refine h.extend hi (fun d' => ?_) hfr.1 hfr.2 fun e he => ?_
      · have hlog : ((r.srv.openDev c d).setConn c { r.srv.conns c with phase := .opened d }).log = r.srv.log ++ [.opened c d] := rfl
        rw [hlog]
        simp only [unclosed_snoc_opened]
        by_cases hdd : d' = d
        · subst hdd
          have h1 := ((((((h.dev d').enter (c := c) fun x hx => absurd hx (hfree x)).inside (.read (.inUse d'))).inside (.read .table)).inside
            (.write (.inUse d'))).inside (.write (.rtlDev d'))).leave
            (own := fun c_1 => Unclosed r.srv.log c_1 d' ∨ c_1 = c ∧ d' = d') fun x hx => hx.elim (fun hx => absurd hx (hfree x)) And.left
          simpa [onThread] using h1
        · refine DevInv.congr ((h.dev d').milds fun e he => .inl ?_) fun c' => by simp [hdd]
          obtain ⟨o, ho, rfl⟩ := mem_onThread he
          simp only [List.mem_cons, List.not_mem_nil, or_false] at ho
          rcases ho with rfl | rfl | rfl | rfl | rfl | rfl <;> simp [DevAccess, Access, Ne.symm hdd]
      · obtain ⟨o, ho, rfl⟩ := mem_onThread he
        simp only [List.mem_cons, List.not_mem_nil, or_false] at ho
        rcases ho with rfl | rfl | rfl | rfl | rfl | rfl
        · exact fits_section (.inl ⟨d, rfl⟩)
        · exact fits_section (.inr (.inr ⟨d, .inl (.inl rfl)⟩))
        · exact (ev_table c hthere).1
        · exact fits_section (.inr (.inr ⟨d, .inl (.inr rfl)⟩))
        · exact fits_section (.inr (.inr ⟨d, .inr (.inr rfl)⟩))
        · exact fits_section (.inr (.inl ⟨d, rfl⟩))
  · cases hs

theorem command_eq {s s' : Server} {c : Nat} {x : Conn} (h : s.command c x = some s') : (s.conns c).phase = .idle ∧ s' = s.setConn c x := by
  unfold Server.command at h
  split at h
  · rename_i hp
    exact ⟨hp, (Option.some.inj h).symm⟩
  · cases h

theorem rinv_command {r : RServer} (h : RInv r) {c : Nat} {s : Server} {x : Conn} {l : List MemEv} (hi : Inv s) (hs : r.srv.command c x = some s)
    (ha : x.async = (r.srv.conns c).async) (hl : ∀ e ∈ l, e = ⟨.conn c, .read (.closeChan c)⟩) : RInv ⟨s, r.streams, r.trace ++ l⟩ := by
  obtain ⟨hp, rfl⟩ := command_eq hs
  refine h.set hi (fun _ => by simp [hp]) (fun h => ha ▸ h) fun e he => ?_
  rw [hl e he]
  exact ev_closeChan c c

theorem rinv_callback {r : RServer} (h : RInv r) {c : Nat} {b : Bool} {s : Server} (hi : Inv s) (hs : r.srv.callback c b = some s) :
    RInv ⟨s, r.streams, r.trace ++ r.srv.ops r.streams (.callback c b)⟩ := by
  unfold Server.callback at hs
  simp only at hs
  split at hs
  · cases hs
  rename_i has
  have hn := h.async c (by simpa using has)
  have hl : ∀ e ∈ r.srv.ops r.streams (.callback c b), RFits r e ∧ ∀ d, Mild (fun c => Unclosed r.srv.log c d) d e := by
    intro e he
    obtain ⟨o, ho, rfl⟩ := mem_onThread he
    have hk : ∀ o, o ∈ [MemOp.write (.closeChan c), .read (.closeChan c), .received c (r.streams c - 1), .read (.packet c (r.streams c - 1)), .write (.packet c (r.streams c - 1))] →
        RFits r ⟨.stream c (r.streams c - 1), o⟩ ∧ ∀ d, Mild (fun c => Unclosed r.srv.log c d) d ⟨.stream c (r.streams c - 1), o⟩ := by
      intro o ho
      simp only [List.mem_cons, List.not_mem_nil, or_false] at ho
      rcases ho with rfl | rfl | rfl | rfl | rfl
      · exact ⟨by simp [RFits, Access], fun d => .inl (by simp [DevAccess, Access])⟩
      · exact ⟨by simp [RFits, Access], fun d => .inl (by simp [DevAccess, Access])⟩
      · exact ⟨by simp [RFits, Access], fun d => .inl (by simp [DevAccess, Access])⟩
      · refine ⟨?_, fun d => .inl (by simp [DevAccess, Access])⟩
        simp only [RFits, Access, ne_eq, reduceCtorEq, not_false_eq_true, MemOp.read.injEq, false_implies, and_self, true_and, or_false, Loc.packet.injEq, implies_true, and_true]
        rintro c' n ⟨rfl, rfl⟩
        exact ⟨by omega, rfl⟩
      · refine ⟨?_, fun d => .inl (by simp [DevAccess, Access])⟩
        simp only [RFits, Access, ne_eq, reduceCtorEq, not_false_eq_true, MemOp.write.injEq, false_implies, and_self, true_and, false_or, Loc.packet.injEq, implies_true, and_true]
        rintro c' n ⟨rfl, rfl⟩
        exact ⟨by omega, rfl⟩
    refine hk o ?_
    unfold Server.callbackOps at ho
    split at ho
    · simp only [List.mem_singleton] at ho
      simp [ho]
    · rcases List.mem_cons.1 ho with rfl | ho
      · simp
      · split at ho <;> simp only [List.mem_cons, List.not_mem_nil, or_false] at ho <;> rcases ho with rfl | rfl <;> simp
  split at hs
  · rw [Option.some.injEq] at hs
    subst hs
    exact h.set hi (fun h => h) (by simp) hl
  · rw [Option.some.injEq] at hs
    subst hs
    exact h.plain hi rfl (fun _ h => h) (fun _ h => h) hl

theorem rinv_base {r : RServer} (h : RInv r) {a : Action} {s : Server} (hs : r.srv.step a = some s) :
    RInv ⟨s, r.srv.streamsAfter r.streams a, r.trace ++ r.srv.ops r.streams a⟩ := by
  have hi := inv_step h.srv a hs
  unfold Server.step at hs
  split at hs
  · cases hs
  cases a with
  | connect c =>
    simp only at hs
    split at hs
    · rw [Option.some.injEq] at hs
      subst hs
      exact rinv_connect h hi
    · cases hs
  | stop c => exact rinv_command h hi hs rfl (by simp [Server.ops, onThread])
  | go c ok =>
    simp only [Server.streamsAfter] at hs ⊢
    by_cases hst : (r.srv.conns c).dev.isSome ∧ (r.srv.conns c).closeChan = .nil ∧ ok = true
    · rw [if_pos hst] at hs
      obtain ⟨hp, rfl⟩ := command_eq hs
      obtain ⟨hd, hc, rfl⟩ := hst
      obtain ⟨d, hd⟩ := Option.isSome_iff_exists.1 hd
      rw [if_pos (by simp [Server.starts, hp, hd, hc])]
      exact rinv_start h hp hd hc hi
    · rw [if_neg hst] at hs
      obtain ⟨hp, rfl⟩ := command_eq hs
      rw [if_neg (by simpa [Server.starts, hp] using hst)]
      refine h.set hi (fun h => h) (fun h => h) fun e he => ?_
      obtain ⟨o, ho, rfl⟩ := mem_onThread he
      unfold Server.goOps at ho
      rcases List.mem_cons.1 ho with rfl | ho
      · exact ev_readDest c
      rcases List.mem_cons.1 ho with rfl | ho
      · exact ev_readDev c
      split at ho
      · cases ho
      · rename_i d hd
        rcases List.mem_cons.1 ho with rfl | ho
        · exact ev_closeChan c c
        split at ho
        · rename_i hc
          rw [if_neg (by intro hok; exact hst ⟨by simp [hd], hc, hok⟩)] at ho
          simp only [List.mem_cons, List.not_mem_nil, or_false] at ho
          rcases ho with rfl | rfl | rfl
          · exact ev_readDest c
          · exact ev_readDev c
          · exact ev_rtlDev c d (h.has hd (by simp [hp]))
        · cases ho
  | select c => exact rinv_command h hi hs rfl (by simp [Server.ops, onThread])
  | release c => exact rinv_command h hi hs rfl (by simp [Server.ops, onThread])
  | disconnect c => exact rinv_command h hi hs rfl (by simp [Server.ops])
  | advance c => exact rinv_advance h hs
  | list c l =>
    simp only at hs
    split at hs
    · rename_i hp
      rw [Option.some.injEq] at hs
      subst hs
      refine h.set hi (fun _ => by simp [hp]) (fun h => h) fun e he => ?_
      obtain ⟨o, ho, rfl⟩ := mem_onThread he
      rw [List.mem_singleton] at ho
      subst ho
      exact ev_table c (by simp [hp])
    · cases hs
  | tryOpen c ok => exact rinv_tryOpen h hs
  | gains c n =>
    simp only at hs
    split at hs
    · rename_i hp
      have hl : ∀ e ∈ r.srv.ops r.streams (.gains c n), RFits r e ∧ ∀ d, Mild (fun c => Unclosed r.srv.log c d) d e := by
        intro e he
        obtain ⟨o, ho, rfl⟩ := mem_onThread he
        split at ho
        · rename_i d hd
          simp only [List.mem_cons, List.not_mem_nil, or_false] at ho
          rcases ho with rfl | rfl
          · exact ev_rtlDev c d (h.has hd (by simp [hp]))
          · exact ev_table c (by simp [hp])
        · cases ho
      split at hs
      · rw [Option.some.injEq] at hs
        subst hs
        exact h.plain hi rfl (fun _ h => h) (fun _ h => h) hl
      · rw [Option.some.injEq] at hs
        subst hs
        exact h.set hi (fun _ => by simp [hp]) (fun h => h) hl
    · cases hs
  | callback c b => exact rinv_callback h hi hs

theorem rinv_step {r r' : RServer} (h : RInv r) (a : RAction) (hs : r.step a = some r') : RInv r' := by
  cases a with
  | base a =>
    simp only [RServer.step, Option.map_eq_some_iff] at hs
    obtain ⟨s, h1, rfl⟩ := hs
    exact rinv_base h h1
  | tune c =>
    simp only [RServer.step] at hs
    split at hs
    · rename_i hp
      rw [Option.some.injEq] at hs
      subst hs
      refine h.plain h.srv rfl (fun _ h => h) (fun _ h => h) fun e he => ?_
      obtain ⟨o, ho, rfl⟩ := mem_onThread he
      cases hd : (r.srv.conns c).dev with
      | none =>
        rw [hd] at ho
        rw [useOps, List.mem_singleton] at ho
        subst ho
        exact ev_readDev c
      | some d =>
        rw [hd] at ho
        simp only [useOps, List.mem_cons, List.not_mem_nil, or_false] at ho
        rcases ho with rfl | rfl
        · exact ev_readDev c
        · exact ev_rtlDev c d (h.has hd (by simp [hp.2]))
    · cases hs
  | dest c set =>
    simp only [RServer.step] at hs
    split at hs
    · rw [Option.some.injEq] at hs
      subst hs
      refine h.plain h.srv rfl (fun _ h => h) (fun _ h => h) fun e he => ?_
      obtain ⟨o, ho, rfl⟩ := mem_onThread he
      rw [List.mem_singleton] at ho
      subst ho
      cases set
      · exact ev_readDest c
      · exact ev_writeDest c
    · cases hs
  | scan c d =>
    simp only [RServer.step] at hs
    split at hs
    · rename_i hp
      rw [Option.some.injEq] at hs
      subst hs
      have ht := ev_table (r := r) c (by simp [hp.2])
      refine h.extend h.srv (fun d' => ?_) (fun _ h => h) (fun _ h => h) fun e he => ?_
      · have := ((h.dev d').mild (ht.2 d')).look (d' := d) (c := c) (.inl rfl)
        simpa [onThread] using this
      · obtain ⟨o, ho, rfl⟩ := mem_onThread he
        simp only [List.mem_cons, List.not_mem_nil, or_false] at ho
        rcases ho with rfl | rfl | rfl | rfl
        · exact ht.1
        · exact fits_section (.inl ⟨d, rfl⟩)
        · exact fits_section (.inr (.inr ⟨d, .inl (.inl rfl)⟩))
        · exact fits_section (.inr (.inl ⟨d, rfl⟩))
    · cases hs

theorem rinv_run (as : List RAction) : ∀ {r r' : RServer}, RInv r → r.run as = some r' → RInv r' := by
  induction as with
  | nil =>
    intro r r' hi h
    rw [RServer.run, Option.some.injEq] at h
    subst h
    exact hi
  | cons a as ih =>
    intro r r' hi h
    rw [RServer.run, Option.bind_eq_some_iff] at h
    obtain ⟨r1, h1, h2⟩ := h
    exact ih (rinv_step hi a h1) h2

/-! ## C150 -/

/-- C150 for everything but `closeChan`: in no execution do two threads access the same place, one of them
writing, without being ordered. Missing: `closeChan` (`C150_violated`). -/
theorem C150_no_race_partial (as : List RAction) (r : RServer) (h : RServer.init.run as = some r) (l : Loc) (hl : ∀ c, l ≠ .closeChan c) :
    ¬ Race r.trace l := by
  have hi := rinv_run as rinv_init h
  refine Clean.no_race ?_
  cases l with
  | table => exact hi.table.clean
  | inUse d => exact (hi.dev d).inUse
  | rtlDev d => exact (hi.dev d).rtlDev
  | dev c => exact clean_of_single fun e he ha => hi.single e he c (.inl ha)
  | dest c => exact clean_of_single fun e he ha => hi.single e he c (.inr ha)
  | closeChan c => exact absurd rfl (hl c)
  | packet c n => exact (hi.packet c n).clean

/-- A property all events of all steps have. -/
theorem trace_all {P : MemEv → Prop} (h0 : ∀ e ∈ RServer.init.trace, P e) (h1 : ∀ s n a, ∀ e ∈ Server.ops s n a, P e)
    (h2 : ∀ c, ∀ o : MemOp, (∀ x, ¬ Access o (.closeChan x)) → P ⟨.conn c, o⟩) (as : List RAction) :
    ∀ (r : RServer), RServer.init.run as = some r → ∀ e ∈ r.trace, P e := by
  suffices H : ∀ (r r' : RServer), (∀ e ∈ r.trace, P e) → r.run as = some r' → ∀ e ∈ r'.trace, P e from fun r hr => H _ r h0 hr
  induction as with
  | nil =>
    intro r r' hp h
    rw [RServer.run, Option.some.injEq] at h
    subst h
    exact hp
  | cons a as ih =>
    intro r r' hp h
    rw [RServer.run, Option.bind_eq_some_iff] at h
    obtain ⟨r1, h3, h4⟩ := h
    refine ih r1 r' (fun e he => ?_) h4
    cases a with
    | base a =>
      simp only [RServer.step, Option.map_eq_some_iff] at h3
      obtain ⟨s, -, rfl⟩ := h3
      exact (List.mem_append.1 he).elim (hp e) (h1 _ _ a e)
    | tune c =>
      simp only [RServer.step] at h3
      split at h3
      · rw [Option.some.injEq] at h3
        subst h3
        refine (List.mem_append.1 he).elim (hp e) fun he => ?_
        obtain ⟨o, ho, rfl⟩ := mem_onThread he
        refine h2 c o ?_
        cases hd : (r.srv.conns c).dev <;> rw [hd] at ho <;> simp only [useOps, List.mem_cons, List.not_mem_nil, or_false] at ho
        · subst ho; simp [Access]
        · rcases ho with rfl | rfl <;> simp [Access]
      · cases h3
    | dest c set =>
      simp only [RServer.step] at h3
      split at h3
      · rw [Option.some.injEq] at h3
        subst h3
        refine (List.mem_append.1 he).elim (hp e) fun he => ?_
        obtain ⟨o, ho, rfl⟩ := mem_onThread he
        refine h2 c o ?_
        rw [List.mem_singleton] at ho
        subst ho
        cases set <;> simp [Access]
      · cases h3
    | scan c d =>
      simp only [RServer.step] at h3
      split at h3
      · rw [Option.some.injEq] at h3
        subst h3
        refine (List.mem_append.1 he).elim (hp e) fun he => ?_
        obtain ⟨o, ho, rfl⟩ := mem_onThread he
        refine h2 c o ?_
        simp only [List.mem_cons, List.not_mem_nil, or_false] at ho
        rcases ho with rfl | rfl | rfl | rfl <;> simp [Access]
      · cases h3

/-- The thread of a stream does nothing that would order another thread after it. -/
def Silent (e : MemEv) : Prop :=
  ∀ c n, e.thread = .stream c n → (∀ d, e.op ≠ .unlock d) ∧ (∀ t, e.op ≠ .spawn t) ∧ ∀ x y, e.op ≠ .close x y

theorem silent_ops (s : Server) (n : Nat → Nat) (a : Action) : ∀ e ∈ s.ops n a, Silent e := by
  intro e he c k ht
  cases a with
  | callback c' b =>
    obtain ⟨o, ho, rfl⟩ := mem_onThread he
    unfold Server.callbackOps at ho
    split at ho
    · simp only [List.mem_singleton] at ho
      simp [ho]
    · rcases List.mem_cons.1 ho with rfl | ho
      · simp
      · split at ho <;> simp only [List.mem_cons, List.not_mem_nil, or_false] at ho <;> rcases ho with rfl | rfl <;> simp
  | connect c' =>
    rcases List.mem_cons.1 he with rfl | he
    · cases ht
    · obtain ⟨o, -, rfl⟩ := mem_onThread he
      cases ht
  | disconnect c' => cases he
  | _ =>
    obtain ⟨o, -, rfl⟩ := mem_onThread he
    cases ht

/-- What a stream's thread does is ordered before nothing but what it does later. -/
theorem silent_hb {tr : List MemEv} (h : ∀ e ∈ tr, Silent e) {i j c n : Nat} {a b : MemEv} (hij : HB tr i j) (hi : tr[i]? = some a)
    (ha : a.thread = .stream c n) (hj : tr[j]? = some b) : b.thread = .stream c n := by
  induction hij generalizing b with
  | single hs =>
    obtain ⟨-, x, y, h1, h2, h3⟩ := hs
    rw [hi, Option.some.injEq] at h1
    rw [hj, Option.some.injEq] at h2
    subst h1 h2
    obtain ⟨q1, q2, q3⟩ := h a (List.mem_of_getElem? hi) c n ha
    rcases h3 with h3 | ⟨d, h3, -⟩ | h3 | ⟨x, y, h3, -⟩
    · rw [← h3, ha]
    · exact absurd h3 (q1 d)
    · exact absurd h3 (q2 _)
    · exact absurd h3 (q3 x y)
  | tail _ hs ih =>
    obtain ⟨-, x, y, h1, h2, h3⟩ := hs
    rw [hj, Option.some.injEq] at h2
    subst h2
    have hx := ih h1
    obtain ⟨q1, q2, q3⟩ := h x (List.mem_of_getElem? h1) c n hx
    rcases h3 with h3 | ⟨d, h3, -⟩ | h3 | ⟨x, y, h3, -⟩
    · rw [← h3, hx]
    · exact absurd h3 (q1 d)
    · exact absurd h3 (q2 _)
    · exact absurd h3 (q3 x y)

/-- C150 fails for `closeChan`, and in every execution that goes on after a stream: once a callback has ended a
stream by writing `closeChan`, every later access by the goroutine of the connection, among them the test
at its end, races with that write. -/
theorem C150_violated_always (as : List RAction) (r : RServer) (h : RServer.init.run as = some r) (c n i j : Nat) (o : MemOp) (hij : i < j)
    (hi : r.trace[i]? = some ⟨.stream c n, .write (.closeChan c)⟩) (hj : r.trace[j]? = some ⟨.conn c, o⟩) (ho : Access o (.closeChan c)) :
    Race r.trace (.closeChan c) := by
  refine ⟨i, j, _, _, hij, hi, hj, by simp, .inr rfl, ho, .inl rfl, fun hb => ?_⟩
  have hs := trace_all (P := Silent) (by intro e he c n ht; simp only [RServer.init, List.mem_cons, List.not_mem_nil, or_false] at he; rcases he with rfl | rfl <;> cases ht)
    silent_ops (by intro c o _ c' n ht; cases ht) as r h
  have := silent_hb hs hb hi rfl hj
  cases this

/-- Only the goroutine of the connection and its streams access its `closeChan`. -/
def Local (e : MemEv) : Prop := ∀ c, Access e.op (.closeChan c) → e.thread = .conn c ∨ ∃ n, e.thread = .stream c n

theorem local_ops (s : Server) (n : Nat → Nat) (a : Action) : ∀ e ∈ s.ops n a, Local e := by
  have hk : ∀ c l, (∀ o ∈ l, ∀ x, Access o (.closeChan x) → x = c) → ∀ e ∈ onThread (.conn c) l, Local e := by
    intro c l hl e he x hx
    obtain ⟨o, ho, rfl⟩ := mem_onThread he
    rw [hl o ho x hx]
    exact .inl rfl
  have hsec : ∀ (c d : Nat) (o : MemOp), (o = .lock d ∨ o = .unlock d ∨ DevAccess o d ∨ o = .read .table) → ∀ x, Access o (.closeChan x) → x = c := by
    rintro c d o (rfl | rfl | ((rfl | rfl) | rfl | rfl) | rfl) <;> simp [Access]
  intro e he
  cases a with
  | connect c =>
    rcases List.mem_cons.1 he with rfl | he
    · simp [Local, Access]
    · exact hk c _ (by simp [Access, eq_comm]) e he
  | stop c => exact hk c _ (by simp [Access, eq_comm]) e he
  | select c => exact hk c _ (by simp [Access, eq_comm]) e he
  | release c => exact hk c _ (by simp [Access, eq_comm]) e he
  | disconnect c => cases he
  | list c l => exact hk c _ (by simp [Access]) e he
  | go c ok =>
    refine hk c _ (fun o ho => ?_) e he
    unfold Server.goOps at ho
    split at ho
    · simp only [List.mem_cons, List.not_mem_nil, or_false] at ho
      rcases ho with rfl | rfl <;> simp [Access]
    · split at ho
      · cases ok <;> simp only [List.mem_cons, List.not_mem_nil, or_false, if_true, Bool.false_eq_true, if_false] at ho
        · rcases ho with rfl | rfl | rfl | rfl | rfl | rfl <;> simp [Access, eq_comm]
        · rcases ho with rfl | rfl | rfl | rfl | rfl | rfl | rfl | rfl | rfl | rfl | rfl <;> simp [Access, eq_comm]
      · simp only [List.mem_cons, List.not_mem_nil, or_false] at ho
        rcases ho with rfl | rfl | rfl <;> simp [Access, eq_comm]
  | advance c =>
    refine hk c _ (fun o ho => ?_) e he
    unfold Server.advanceOps at ho
    split at ho
    · rw [List.mem_singleton] at ho
      subst ho
      simp [Access, eq_comm]
    · split at ho <;> simp only [List.mem_cons, List.not_mem_nil, or_false] at ho
      · rcases ho with rfl | rfl <;> simp [Access, eq_comm]
      · subst ho
        simp [Access, eq_comm]
    · rcases List.mem_cons.1 ho with rfl | ho
      · simp [Access]
      · split at ho
        · cases ho
        · rename_i d hd
          rcases List.mem_append.1 ho with ho | ho
          · refine hsec c d o ?_
            unfold Server.closeOps at ho
            split at ho <;> simp only [List.cons_append, List.nil_append, List.mem_cons, List.not_mem_nil, or_false] at ho
            · rcases ho with rfl | rfl | rfl | rfl | rfl <;> simp [DevAccess, Access]
            · rcases ho with rfl | rfl | rfl <;> simp [DevAccess, Access]
          · split at ho
            · cases ho
            · rw [List.mem_singleton] at ho
              subst ho
              simp [Access]
    · simp only [List.mem_cons, List.not_mem_nil, or_false] at ho
      rcases ho with rfl | rfl <;> simp [Access]
    · cases ho
  | tryOpen c ok =>
    refine hk c _ (fun o ho => ?_) e he
    split at ho
    · rename_i d _ _
      refine hsec c d o ?_
      unfold Server.openOps at ho
      split at ho <;> simp only [List.mem_cons, List.not_mem_nil, or_false] at ho
      · rcases ho with rfl | rfl | rfl <;> simp [DevAccess, Access]
      · rcases ho with rfl | rfl | rfl | rfl | rfl | rfl <;> simp [DevAccess, Access]
    · cases ho
  | gains c n =>
    refine hk c _ (fun o ho => ?_) e he
    split at ho
    · simp only [List.mem_cons, List.not_mem_nil, or_false] at ho
      rcases ho with rfl | rfl <;> simp [Access]
    · cases ho
  | callback c b =>
    obtain ⟨o, ho, rfl⟩ := mem_onThread he
    intro x hx
    refine .inr ⟨n c - 1, ?_⟩
    have : x = c := by
      unfold Server.callbackOps at ho
      split at ho
      · rw [List.mem_singleton] at ho
        subst ho
        simpa [Access, eq_comm] using hx
      · rcases List.mem_cons.1 ho with rfl | ho
        · simpa [Access, eq_comm] using hx
        · split at ho <;> simp only [List.mem_cons, List.not_mem_nil, or_false] at ho <;> rcases ho with rfl | rfl <;> simp [Access, eq_comm] at hx
          exact hx.symm
    rw [this]

/-- C150, where the races are: a race in the server is on the `closeChan` of some connection, and one of the
two threads is that of one of its streams. -/
theorem C150_where_partial (as : List RAction) (r : RServer) (h : RServer.init.run as = some r) (l : Loc) (hl : Race r.trace l) :
    ∃ c, l = .closeChan c ∧ ∃ i j a b, i < j ∧ r.trace[i]? = some a ∧ r.trace[j]? = some b ∧ Access a.op l ∧ Access b.op l ∧ ¬ HB r.trace i j ∧
      ((a.thread = .conn c ∧ ∃ n, b.thread = .stream c n) ∨ (b.thread = .conn c ∧ ∃ n, a.thread = .stream c n) ∨
        ∃ n m, a.thread = .stream c n ∧ b.thread = .stream c m ∧ n ≠ m) := by
  by_cases hc : ∃ c, l = .closeChan c
  · obtain ⟨c, rfl⟩ := hc
    obtain ⟨i, j, a, b, h1, h2, h3, h4, h5, h6, h7, h8⟩ := hl
    have hs := trace_all (P := Local) (by intro e he; simp only [RServer.init, List.mem_cons, List.not_mem_nil, or_false] at he; rcases he with rfl | rfl <;> simp [Local, Access])
      local_ops (by intro c o ho x hx; exact absurd hx (ho x)) as r h
    refine ⟨c, rfl, i, j, a, b, h1, h2, h3, h5, h6, h8, ?_⟩
    rcases hs a (List.mem_of_getElem? h2) c h5 with ha | ⟨n, ha⟩ <;> rcases hs b (List.mem_of_getElem? h3) c h6 with hb | ⟨m, hb⟩
    · exact absurd (ha.trans hb.symm) h4
    · exact .inl ⟨ha, m, hb⟩
    · exact .inr (.inl ⟨hb, n, ha⟩)
    · exact .inr (.inr ⟨n, m, ha, hb, fun hn => h4 (by rw [ha, hb, hn])⟩)
  · exact absurd hl (C150_no_race_partial as r h l fun c hc' => hc ⟨c, hc'⟩)

/-- A client that selects a device, starts and stops the stream, and goes away. -/
def orderly : List RAction :=
  ([.connect 0, .select 0, .advance 0, .list 0 [0], .tryOpen 0 true, .advance 0, .gains 0 (some 2), .go 0 true, .callback 0 false, .stop 0, .advance 0, .advance 0,
    .callback 0 false, .disconnect 0, .advance 0, .advance 0] : List Action).map .base

/-- C150 is violated: an ordinary session has a race on `closeChan`. -/
theorem C150_violated : ∃ r, RServer.init.run orderly = some r ∧ (r.srv.conns 0).phase = .gone ∧ r.srv.panic = none ∧ Race r.trace (.closeChan 0) := by
  have e : (RServer.init.run orderly).isSome = true := by decide +kernel
  obtain ⟨r, hr⟩ := Option.isSome_iff_exists.1 e
  have key : ((RServer.init.run orderly).map fun r => (decide ((r.srv.conns 0).phase = .gone), r.srv.panic, r.trace[39]?, r.trace[40]?)) =
      some (true, none, some ⟨.stream 0 0, .write (.closeChan 0)⟩, some ⟨.conn 0, .read (.closeChan 0)⟩) := by decide +kernel
  rw [hr] at key
  simp only [Option.map_some, Option.some.injEq, Prod.mk.injEq, decide_eq_true_eq] at key
  exact ⟨r, hr, key.1, key.2.1, C150_violated_always _ r hr 0 0 39 40 _ (by omega) key.2.2.1 key.2.2.2 (.inl rfl)⟩

/-- Two connections that have the same device one after the other. -/
def handedOver : List RAction :=
  orderly ++ [.base (.connect 1), .base (.select 1), .base (.advance 1), .scan 1 0, .base (.list 1 [0]), .base (.tryOpen 1 true), .base (.advance 1),
    .base (.gains 1 (some 2)), .tune 1, .dest 1 true]

/-- `C150_no_race_partial` is about accesses of different threads: here both connections write and read
`rtlDev` of the same device, and one of them reads it outside the mutex. -/
example : ∃ r, RServer.init.run handedOver = some r ∧ ⟨.conn 0, .write (.rtlDev 0)⟩ ∈ r.trace ∧ ⟨.conn 1, .write (.rtlDev 0)⟩ ∈ r.trace ∧
    ⟨.conn 1, .read (.rtlDev 0)⟩ ∈ r.trace ∧ ¬ Race r.trace (.rtlDev 0) := by
  have e : (RServer.init.run handedOver).isSome = true := by decide +kernel
  obtain ⟨r, hr⟩ := Option.isSome_iff_exists.1 e
  have key : ((RServer.init.run handedOver).map fun r => (decide (⟨.conn 0, .write (.rtlDev 0)⟩ ∈ r.trace), decide (⟨.conn 1, .write (.rtlDev 0)⟩ ∈ r.trace),
      decide (⟨.conn 1, .read (.rtlDev 0)⟩ ∈ r.trace))) = some (true, true, true) := by decide +kernel
  rw [hr] at key
  simp only [Option.map_some, Option.some.injEq, Prod.mk.injEq, decide_eq_true_eq] at key
  exact ⟨r, hr, key.1, key.2.1, key.2.2, C150_no_race_partial _ r hr _ (by simp)⟩

/-- The order is not total: what two connections do without the mutex is not ordered. -/
example : Race [⟨.accept, .spawn (.conn 0)⟩, ⟨.accept, .spawn (.conn 1)⟩, ⟨.conn 0, .write (.rtlDev 0)⟩, ⟨.conn 1, .read (.rtlDev 0)⟩] (.rtlDev 0) := by
  refine ⟨2, 3, _, _, by decide, rfl, rfl, by simp, .inr rfl, .inl rfl, .inl rfl, fun h => ?_⟩
  obtain ⟨k, ⟨h1, a, b, h2, h4, h5⟩, -⟩ := Relation.TransGen.head'_iff.1 h
  have hlt := get_lt h4
  simp only [List.length_cons, List.length_nil] at hlt
  obtain rfl : k = 3 := by omega
  simp only [List.getElem?_cons_succ, List.getElem?_cons_zero, Option.some.injEq] at h2 h4
  subst h2 h4
  rcases h5 with h5 | ⟨d, h5, -⟩ | h5 | ⟨x, y, h5, -⟩ <;> cases h5

end Verif.Borip
