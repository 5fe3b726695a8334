import Verif.Borip.InteropProps

/-!
# Property C77: one call, one line
-/

namespace Verif.Borip

variable {F : Type}

/-- The strings a caller passes. -/
def Op.strings : Op F → List Str
  | .selectDevice h => [h]
  | .setAntenna a => [a]
  | .setDestination d => [d]
  | _ => []

/-- The lines a server reads from what has been written: what precedes each newline. -/
def linesRead (s : Str) : List Str := (split '\n' s).dropLast

theorem linesRead_one (t : Str) (h : '\n' ∉ t) : linesRead (t ++ ['\n']) = [t] := by
  unfold linesRead
  rw [split_append _ _ _ h]
  rfl

/-- What a call other than `Close` writes. -/
theorem request_of (lib : Lib F) (op : Op F) (hc : op ≠ .close) (hf : ∀ x, '\n' ∉ lib.formatFloat x) :
    ∃ t, op.request lib = some (t ++ ['\n']) ∧ ((∀ a ∈ op.strings, '\n' ∉ a) → '\n' ∉ t) := by
  have h1 : ∀ a b : Str, '\n' ∉ a → '\n' ∉ b → '\n' ∉ a ++ b := by
    intro a b ha hb
    rw [List.mem_append, not_or]
    exact ⟨ha, hb⟩
  cases op with
  | selectDevice h => exact ⟨_, rfl, fun g => h1 _ _ (by decide) (g h (by simp [Op.strings]))⟩
  | setFrequency f => exact ⟨_, rfl, fun _ => h1 _ _ (by decide) (hf f)⟩
  | frequency => exact ⟨lit "FREQ", rfl, fun _ => by decide⟩
  | setAntenna a => exact ⟨_, rfl, fun g => h1 _ _ (by decide) (g a (by simp [Op.strings]))⟩
  | antenna => exact ⟨lit "ANTENNA", rfl, fun _ => by decide⟩
  | setRate f => exact ⟨_, rfl, fun _ => h1 _ _ (by decide) (hf f)⟩
  | rate => exact ⟨lit "RATE", rfl, fun _ => by decide⟩
  | setGain f => exact ⟨_, rfl, fun _ => h1 _ _ (by decide) (hf f)⟩
  | gain => exact ⟨lit "GAIN", rfl, fun _ => by decide⟩
  | setDestination d => exact ⟨_, rfl, fun g => h1 _ _ (by decide) (g d (by simp [Op.strings]))⟩
  | destination => exact ⟨lit "DEST", rfl, fun _ => by decide⟩
  | setHeaderEnabled e =>
    cases e with
    | true => exact ⟨lit "HEADER ON", rfl, fun _ => by decide⟩
    | false => exact ⟨lit "HEADER OFF", rfl, fun _ => by decide⟩
  | headerEnabled => exact ⟨lit "HEADER", rfl, fun _ => by decide⟩
  | go => exact ⟨lit "GO", rfl, fun _ => by decide⟩
  | stop => exact ⟨lit "STOP", rfl, fun _ => by decide⟩
  | close => exact absurd rfl hc

/-- C77, the part that holds: a call whose strings contain no newline writes exactly one line. -/
theorem C77_one_line_partial (lib : Lib F) (hf : ∀ x, '\n' ∉ lib.formatFloat x) (bor : BorIP F) (raw : Str) (op : Op F) (hc : op ≠ .close)
    (ha : ∀ a ∈ op.strings, '\n' ∉ a) (r : Except CErr (Value F)) (bor' : BorIP F)
    (h : BorIP.perform lib { bor with replies := [.line raw] } op = some (r, bor')) :
    ∃ req line, bor'.log = bor.log ++ [(req, .line raw)] ∧ linesRead req = [line] := by
  obtain ⟨t, h1, h2⟩ := request_of lib op hc hf
  exact ⟨_, t, C68_request lib bor raw op _ h1 r bor' h, linesRead_one t (h2 ha)⟩

/-- C77 does not hold: what follows a newline in the name of an antenna reaches the server as a command
of its own. -/
theorem C77_violated (lib : Lib F) (bor : BorIP F) (raw : Str) (a b : Str) (ha : '\n' ∉ a) (hb : '\n' ∉ b) (r : Except CErr (Value F)) (bor' : BorIP F)
    (h : BorIP.perform lib { bor with replies := [.line raw] } (.setAntenna (a ++ '\n' :: b)) = some (r, bor')) :
    ∃ req, bor'.log = bor.log ++ [(req, .line raw)] ∧ linesRead req = [lit "ANTENNA " ++ a, b] := by
  refine ⟨_, C68_request lib bor raw _ _ rfl r bor' h, ?_⟩
  have e : lit "ANTENNA " ++ (a ++ '\n' :: b) ++ ['\n'] = (lit "ANTENNA " ++ a) ++ '\n' :: (b ++ ['\n']) := by simp
  unfold linesRead
  rw [e, split_append _ _ _ (by rw [List.mem_append, not_or]; exact ⟨by decide, ha⟩), split_append _ _ _ hb]
  rfl

/-- The caller gets the answer to the first line; the answer to the second is taken for the answer to the
next call. -/
example : ((testBor.perform testSLib.toLib (.setAntenna (lit "x\nGO"))).map fun r => r.2.log.map fun e => linesRead e.1) =
    some [[lit "ANTENNA x", lit "GO"]] := by
  decide

example : ∃ r bor', BorIP.perform testSLib.toLib { testBor with replies := [.line (lit "ANTENNA OK\n")] } (.setAntenna (lit "x\nGO")) = some (r, bor') := ⟨_, _, rfl⟩

end Verif.Borip
