import Verif.Spindle.SmcProps
import Verif.Machine.Model

/-!
# C74: the serial line to the motor controller

`PololuSMCSpindle` of `/repo/src/spindle-control.cc`, 369-602, byte by byte: what is written and what is made of the bytes read.

The controller answers the `n`-th command with some bytes (`World.ans`); they are queued until they are read. The `n`-th `read`
fails or returns at most `got n` bytes. The buffers are not initialised, so bytes that were not read have the value the stack
happened to hold (`World.junk`).

Simplifications: a command that is not or not completely written is one the controller answers in some other way; time
passes unnoticed; a `read` for which no byte is queued waits forever (`none`).
-/
namespace BeagleG.Spindle.Wire

/-- The controller at the other end of the line and `read`. -/
structure World where
  ans : Nat → List Nat → List Nat
  got : Nat → Option Nat
  junk : Nat → Nat → Nat

/-- What is seen from outside. spindle-control.cc 123-133, 582-602. -/
inductive Ev where
  | write (bytes : List Nat)
  | power (on : Bool)
deriving DecidableEq, Repr

/-- The state of the line. -/
structure Line where
  /-- commands written -/
  writes : Nat
  /-- calls of `read` -/
  reads : Nat
  /-- bytes that have arrived -/
  queue : List Nat
  log : List Ev
deriving DecidableEq, Repr

variable (W : World)

/-- `send`, lines 582-589. -/
def send (bytes : List Nat) (l : Line) : Line :=
  { l with writes := l.writes + 1, queue := l.queue ++ W.ans l.writes bytes, log := l.log ++ [.write bytes] }

/-- `receive`, lines 591-598: what the buffer of `count` bytes holds afterwards. -/
def receive (count : Nat) (l : Line) : Option (List Nat × Line) :=
  match W.got l.reads with
  | none => some ((List.range count).map (W.junk l.reads), { l with reads := l.reads + 1 })
  | some g =>
    if l.queue = [] then none
    else
      let k := min (min count (g + 1)) l.queue.length
      some (l.queue.take k ++ ((List.range count).drop k).map (W.junk l.reads),
        { l with reads := l.reads + 1, queue := l.queue.drop k })

/-- The number in two bytes, line 535. -/
def pair (b : List Nat) : Nat := b.getD 0 0 + 256 * b.getD 1 0

/-- `get_variable`, lines 529-536. -/
def getVariable (id : Nat) (l : Line) : Option (Nat × Line) :=
  (receive W 2 (send W [0xa1, id] l)).map fun r => (pair r.1, r.2)

/-- `static_cast<int16_t>`. spindle-control.cc 390-443, 529-538. -/
def int16 (v : Nat) : Int := if v % 65536 < 32768 then (v % 65536 : Nat) else (v % 65536 : Nat) - 65536

/-- Asking for `SPEED` until it satisfies `done`, lines 411-415 and 432-436. -/
def await (done : Int → Bool) : Nat → Line → Option Line
  | fuel, l => (getVariable W 21 l).bind fun r =>
    if done (int16 r.1) then some r.2
    else match fuel with
      | 0 => none
      | fuel + 1 => await done fuel r.2

/-- The value of a byte of a negative or positive number, as `& 0x7f` takes it. spindle-control.cc 462-480. -/
def low7 (v : Int) : Nat := (v % 128).toNat

/-- `set_motor_limit`, lines 470-524; the identifiers used are valid. -/
def setMotorLimit (id : Nat) (v : Int) (l : Line) : Option Line :=
  if v = 0 then some l
  else (receive W 1 (send W [0xa2, id, low7 v, low7 (v / 128)] l)).map Prod.snd

/-- `get_version`, lines 451-460. -/
def getVersion (l : Line) : Option Line := (receive W 4 (send W [0xc2] l)).map Prod.snd

/-- `check_limits`, both directions, lines 564-580. -/
def checkLimits (l : Line) : Option Line :=
  [30, 31, 32, 33, 36, 37, 38, 39].foldlM (fun l id => (getVariable W id l).map Prod.snd) l

/-- The relay of the spindle is switched. spindle-control.cc 123-133. -/
def power (on : Bool) (l : Line) : Line := { l with log := l.log ++ [.power on] }

/-- `Off`, lines 425-442. -/
def off (fuel : Nat) (l : Line) : Option Line :=
  (await W (fun a => decide (a = 0)) fuel (send W [0xe0] l)).map (power false)

/-- The part of `Init` behind `open` and the settings of the terminal, lines 377-387. -/
def init (maxAccel maxDecel : Int) (fuel : Nat) (l : Line) : Option Line :=
  (getVersion W l).bind fun l =>
  (setMotorLimit W 1 maxAccel l).bind fun l =>
  (setMotorLimit W 2 maxDecel l).bind fun l =>
  (checkLimits W l).bind fun l =>
  off W fuel l

/-- The bytes of `set_target_speed`, lines 462-468. -/
def targetBytes (ccw : Bool) (speed : Int) : List Nat :=
  [if ccw then 0x86 else 0x85, (speed % 32).toNat, ((speed / 32) % 128).toNat]

/-- `On`, lines 390-423; the first of the result is `is_off_`. -/
def on (cfg : Config) (fuel : Nat) (isOff : Bool) (ccw : Bool) (rpm : Int) (l : Line) : Option (Bool × Line) :=
  if !cfg.allowCcw && ccw then some (isOff, l)
  else
    (if isOff then (getVariable W 1 (power true l)).map fun r => send W [0x83] r.2 else some l).bind fun l =>
    (smcSpeed cfg rpm).bind fun speed =>
      let l := send W (targetBytes ccw speed) l
      if isOff then (await W (fun a => decide (speed ≤ a)) fuel l).map fun l => (false, l) else some (false, l)

/-! ### The controller answers and reads are complete -/

/-- Bytes of the answer to a command (Pololu's protocol).
The bytes that `receive` waits for, spindle-control.cc 451-538, 591-602. -/
def answerLength : List Nat → Nat
  | 0xa1 :: _ => 2
  | 0xa2 :: _ => 1
  | 0xc2 :: _ => 4
  | _ => 0

/-- Every command is answered completely, and every `read` gets all bytes it asks for.
Assumption about the controller and `read`, spindle-control.cc 591-602. -/
structure Calm : Prop where
  answers : ∀ n b, (W.ans n b).length = answerLength b
  reads : ∀ n, ∃ g, 3 ≤ g ∧ W.got n = some g

variable {W}

theorem receive_calm (h : Calm W) (l : Line) (n : Nat) (hn : 0 < n) (h4 : n ≤ 4) (hq : l.queue.length = n) :
    receive W n l = some (l.queue, { l with reads := l.reads + 1, queue := [] }) := by
  obtain ⟨g, hg, hr⟩ := h.reads l.reads
  unfold receive
  rw [hr]
  have hne : l.queue ≠ [] := fun e => by rw [e] at hq; simp at hq; omega
  have hk : min (min n (g + 1)) l.queue.length = n := by omega
  simp only [hne, if_false, hk]
  rw [← hq, List.take_length, List.drop_length, List.drop_eq_nil_of_le (by simp)]
  simp

/-- The speed the controller reports in answer to command `n`. spindle-control.cc 390-443, 529-538. -/
def reported (W : World) (n : Nat) : Int := int16 (pair (W.ans n [0xa1, 21]))

/-- C74. The two bytes of an answer, low byte first, are the number in two's complement. -/
theorem C74_value (v : Int) (h1 : -32768 ≤ v) (h2 : v < 32768) :
    int16 (pair [(v % 256).toNat, (v / 256 % 256).toNat]) = v := by
  unfold int16 pair
  simp only [List.getD_cons_zero, List.getD_cons_succ]
  split <;> omega

/-- C74. The three bytes that set a speed up to 3200: the command of the direction, five bits and seven bits of it; it
is the command of C57. -/
theorem C74_target (ccw : Bool) (speed : Int) (h0 : 0 ≤ speed) (h1 : speed ≤ 3200) :
    ∃ low high : Nat, targetBytes ccw speed = [if ccw then 0x86 else 0x85, low, high] ∧ low < 32 ∧ high < 128 ∧
      (low + 32 * high : Int) = speed ∧ setTargetSpeed ccw speed = .target (if ccw then 0x86 else 0x85) low high :=
  ⟨_, _, rfl, by omega, by omega, by omega, rfl⟩

/-- C74. A variable that is asked for is the answer to this question, and nothing is left over. -/
theorem C74_variable (h : Calm W) (id : Nat) (l : Line) (hq : l.queue = []) :
    getVariable W id l = some (pair (W.ans l.writes [0xa1, id]),
      ⟨l.writes + 1, l.reads + 1, [], l.log ++ [.write [0xa1, id]]⟩) := by
  unfold getVariable
  have h2 : (send W [0xa1, id] l).queue.length = 2 := by
    simp only [send, hq, List.nil_append]
    exact h.answers _ _
  rw [receive_calm h _ 2 (by decide) (by decide) h2]
  simp [send, hq]

/-- Log of `n` questions for the speed. Specification of spindle-control.cc 529-538. -/
def asks (n : Nat) : List Ev := List.replicate n (.write [0xa1, 21])

theorem asks_succ (n : Nat) : asks (n + 1) = Ev.write [0xa1, 21] :: asks n := rfl

theorem await_calm (h : Calm W) (done : Int → Bool) : ∀ (fuel : Nat) (l : Line) (k : Nat), l.queue = [] → k ≤ l.writes →
    await W done fuel l = (waitSpeed (fun j => reported W (l.writes - k + j)) done fuel k).map fun n =>
      ⟨l.writes + (n - k), l.reads + (n - k), [], l.log ++ asks (n - k)⟩ := by
  intro fuel
  induction fuel with
  | zero =>
    intro l k hq hk
    unfold await waitSpeed
    rw [C74_variable h 21 l hq]
    have e : reported W (l.writes - k + k) = int16 (pair (W.ans l.writes [0xa1, 21])) := by
      rw [Nat.sub_add_cancel (by omega)]; rfl
    simp only [Option.bind_some, e]
    split
    · simp only [Option.map_some, show k + 1 - k = 1 by omega, asks, List.replicate_one]
    · rfl
  | succ fuel ih =>
    intro l k hq hk
    unfold await waitSpeed
    rw [C74_variable h 21 l hq]
    have e : reported W (l.writes - k + k) = int16 (pair (W.ans l.writes [0xa1, 21])) := by
      rw [Nat.sub_add_cancel (by omega)]; rfl
    simp only [Option.bind_some, e]
    split
    · simp only [Option.map_some, show k + 1 - k = 1 by omega, asks, List.replicate_one]
    · have h1 := ih ⟨l.writes + 1, l.reads + 1, [], l.log ++ [.write [0xa1, 21]]⟩ (k + 1) rfl (Nat.succ_le_succ hk)
      rw [h1]
      have e2 : l.writes + 1 - (k + 1) = l.writes - k := by omega
      simp only [e2]
      cases hw : waitSpeed (fun j => reported W (l.writes - k + j)) done fuel (k + 1) with
      | none => rfl
      | some n =>
        obtain ⟨m, hm1, hm2, -⟩ := waitSpeed_done hw
        simp only [Option.map_some, Option.some.injEq, Line.mk.injEq, true_and]
        refine ⟨by omega, by omega, ?_⟩
        rw [show n - k = (n - (k + 1)) + 1 by omega, asks_succ]
        simp

/-- C74. Then `Off` is that of C57: the controller is told to stop, asked for its speed until that is 0, and only then power is switched off. -/
theorem C74_off (h : Calm W) (fuel : Nat) (l : Line) (hq : l.queue = []) (b : Bool) :
    off W fuel l = (smcOff (fun k => reported W (l.writes + 1 + k)) fuel ⟨b, 0⟩).map fun r =>
      ⟨l.writes + 1 + r.1.queries, l.reads + r.1.queries, [],
        l.log ++ [.write [0xe0]] ++ asks r.1.queries ++ [.power false]⟩ := by
  have h0 : W.ans l.writes [0xe0] = [] := List.eq_nil_of_length_eq_zero (h.answers _ _)
  have h1 := await_calm h (fun a => decide (a = 0)) fuel (send W [0xe0] l) 0 (by simp [send, hq, h0]) (Nat.zero_le _)
  unfold off smcOff
  rw [h1]
  simp only [send, Nat.sub_zero]
  cases waitSpeed (fun k => reported W (l.writes + 1 + k)) (fun a => decide (a = 0)) fuel 0 with
  | none => rfl
  | some n => rfl

/-- C74. So is `On`: power, errors, safe start, target, and questions for the speed if it was off; otherwise just the target. -/
theorem C74_on (h : Calm W) (cfg : Config) (fuel : Nat) (isOff ccw : Bool) (rpm : Int) (l : Line) (hq : l.queue = []) :
    on W cfg fuel isOff ccw rpm l =
      if !cfg.allowCcw && ccw then some (isOff, l)
      else (smcSpeed cfg rpm).bind fun speed =>
        (smcOn cfg (fun k => reported W (l.writes + 3 + k)) fuel ⟨isOff, 0⟩ ccw rpm).map fun r =>
          (false,
            if isOff then ⟨l.writes + 3 + r.1.queries, l.reads + 1 + r.1.queries, [],
                l.log ++ [.power true, .write [0xa1, 1], .write [0x83], .write (targetBytes ccw speed)] ++ asks r.1.queries⟩
            else ⟨l.writes + 1, l.reads, [], l.log ++ [.write (targetBytes ccw speed)]⟩) := by
  unfold on smcOn
  by_cases hc : (!cfg.allowCcw && ccw) = true
  · rw [if_pos hc, if_pos hc]
  rw [if_neg hc, if_neg hc]
  simp only [if_neg hc]
  have ht : ∀ n sp, W.ans n (targetBytes ccw sp) = [] := fun n sp => List.eq_nil_of_length_eq_zero (by
    rw [h.answers]; cases ccw <;> rfl)
  have hx : ∀ n, W.ans n [0x83] = [] := fun n => List.eq_nil_of_length_eq_zero (h.answers _ _)
  cases hs : smcSpeed cfg rpm with
  | none =>
    cases isOff with
    | false => rfl
    | true =>
      simp only [if_true, Option.bind_none, Option.bind_fun_none]
  | some sp =>
    cases isOff with
    | false =>
      simp [send, hq, ht]
    | true =>
      have h1 := C74_variable h 1 (power true l) (by simpa [power] using hq)
      simp only [if_true, h1, Option.map_some, Option.bind_some]
      have hline : send W (targetBytes ccw sp) (send W [0x83]
          ⟨(power true l).writes + 1, (power true l).reads + 1, [], (power true l).log ++ [.write [0xa1, 1]]⟩) =
          ⟨l.writes + 3, l.reads + 1, [], l.log ++ [.power true, .write [0xa1, 1], .write [0x83], .write (targetBytes ccw sp)]⟩ := by
        simp [send, power, hx, ht]
      rw [hline]
      have h2 := await_calm h (fun a => decide (sp ≤ a)) fuel
        ⟨l.writes + 3, l.reads + 1, [], l.log ++ [.power true, .write [0xa1, 1], .write [0x83], .write (targetBytes ccw sp)]⟩ 0 rfl (Nat.zero_le _)
      rw [h2]
      simp only [Nat.sub_zero]
      cases waitSpeed (fun k => reported W (l.writes + 3 + k)) (fun a => decide (sp ≤ a)) fuel 0 with
      | none => rfl
      | some n => rfl

/-- The command for a limit, nothing for 0. Specification of spindle-control.cc 470-527. -/
def limitLog (id : Nat) (v : Int) : List Ev := if v = 0 then [] else [.write [0xa2, id, low7 v, low7 (v / 128)]]

theorem limit_calm (h : Calm W) (id : Nat) (v : Int) (l : Line) (hq : l.queue = []) :
    setMotorLimit W id v l =
      some ⟨l.writes + (limitLog id v).length, l.reads + (limitLog id v).length, [], l.log ++ limitLog id v⟩ := by
  unfold setMotorLimit limitLog
  split
  · simp only [List.length_nil, Nat.add_zero, List.append_nil, Option.some.injEq]
    rw [← hq]
  · have h1 : (send W [0xa2, id, low7 v, low7 (v / 128)] l).queue.length = 1 := by
      simp only [send, hq, List.nil_append]
      exact h.answers _ _
    rw [receive_calm h _ 1 (by decide) (by decide) h1]
    simp [send]

theorem limits_calm (h : Calm W) : ∀ (ids : List Nat) (l : Line), l.queue = [] →
    ids.foldlM (fun l id => (getVariable W id l).map Prod.snd) l =
      some ⟨l.writes + ids.length, l.reads + ids.length, [], l.log ++ ids.map fun id => .write [0xa1, id]⟩ := by
  intro ids
  induction ids with
  | nil =>
    intro l hq
    obtain ⟨w, r, q, g⟩ := l
    cases hq
    simp
  | cons id ids ih =>
    intro l hq
    rw [List.foldlM_cons, C74_variable h id l hq]
    simp only [Option.map_some]
    show List.foldlM (fun l id => (getVariable W id l).map Prod.snd) (⟨l.writes + 1, l.reads + 1, [], l.log ++ [.write [0xa1, id]]⟩ : Line) ids = _
    rw [ih _ rfl]
    simp only [List.length_cons, List.map_cons, List.append_assoc, List.singleton_append, Option.some.injEq, Line.mk.injEq, and_true]
    omega

/-- The commands of `Init` before `Off`. Specification of spindle-control.cc 365-388. -/
def initLog (maxAccel maxDecel : Int) : List Ev :=
  [.write [0xc2]] ++ limitLog 1 maxAccel ++ limitLog 2 maxDecel ++
    [30, 31, 32, 33, 36, 37, 38, 39].map fun id => .write [0xa1, id]

/-- C74. The start: version, limits, the limits in force, and then the motor is stopped and power switched off. -/
theorem C74_init (h : Calm W) (maxAccel maxDecel : Int) (fuel : Nat) (l : Line) (hq : l.queue = []) :
    init W maxAccel maxDecel fuel l =
      off W fuel ⟨l.writes + (initLog maxAccel maxDecel).length, l.reads + (initLog maxAccel maxDecel).length, [],
        l.log ++ initLog maxAccel maxDecel⟩ := by
  unfold init
  have h4 : (send W [0xc2] l).queue.length = 4 := by
    simp only [send, hq, List.nil_append]
    exact h.answers _ _
  have hv : getVersion W l = some ⟨l.writes + 1, l.reads + 1, [], l.log ++ [.write [0xc2]]⟩ := by
    unfold getVersion
    rw [receive_calm h _ 4 (by decide) (by decide) h4]
    rfl
  rw [hv, Option.bind_some, limit_calm h _ _ _ rfl, Option.bind_some, limit_calm h _ _ _ rfl, Option.bind_some]
  unfold checkLimits
  rw [limits_calm h _ _ rfl, Option.bind_some]
  congr 1
  simp only [initLog, Line.mk.injEq, List.length_append, List.length_map, List.length_cons, List.length_nil, List.append_assoc, and_true]
  omega

/-- C74. A limit reaches the controller if it fits 14 bits; what is sent is the limit modulo 2¹⁴. -/
theorem C74_limit_partial (v : Int) : low7 v < 128 ∧ low7 (v / 128) < 128 ∧
    ((low7 v + 128 * low7 (v / 128) : Nat) : Int) = v % 16384 ∧
    (0 ≤ v → v < 16384 → ((low7 v + 128 * low7 (v / 128) : Nat) : Int) = v) := by
  unfold low7
  omega

/-- C74. Power is removed only after the controller has reported that the motor stands, in answer to the last question. -/
theorem C74_power_off_partial (h : Calm W) (fuel : Nat) (l l' : Line) (hq : l.queue = []) (ho : off W fuel l = some l') :
    ∃ k, l'.log = l.log ++ [.write [0xe0]] ++ asks (k + 1) ++ [.power false] ∧ l'.writes = l.writes + 1 + (k + 1) ∧
      reported W (l.writes + 1 + k) = 0 ∧ l'.queue = [] := by
  rw [C74_off h fuel l hq true] at ho
  obtain ⟨⟨s, as⟩, h1, h2⟩ := Option.map_eq_some_iff.1 ho
  obtain ⟨-, -, k, h3, h4, h5⟩ := C57_off _ _ _ _ _ h1
  subst h2
  exact ⟨k, by simp only [h4], by simp only [h4], h5, rfl⟩

/-- A controller whose motor slows down. Example. -/
def slowing : World := ⟨fun n b => match answerLength b with | 2 => if n < 4 then [0x90, 1] else [0, 0] | k => List.replicate k 0, fun _ => some 3, fun _ _ => 0⟩

/-- Not vacuous. -/
example : Calm slowing := ⟨fun n b => by
  simp only [slowing]
  split
  · rename_i h
    split <;> rw [h] <;> rfl
  · simp, fun _ => ⟨3, Nat.le_refl _, rfl⟩⟩

example : (off slowing 9 ⟨0, 0, [], []⟩).map Line.log = some ([.write [0xe0]] ++ asks 4 ++ [.power false]) := by decide +kernel

example : (on slowing ⟨3000, true⟩ 9 true false 375 ⟨0, 0, [], []⟩).map (fun r => r.2.log) =
    some [.power true, .write [0xa1, 1], .write [0x83], .write [0x85, 16, 12], .write [0xa1, 21]] := by decide +kernel

example : (init slowing 5 300 9 ⟨0, 0, [], []⟩).isSome := by decide +kernel

/-! ### Short reads, no answers -/

/-- A controller whose motor turns at 100, and a moment later at 256, for good. Example. -/
def turning (n : Nat) (b : List Nat) : List Nat :=
  match answerLength b with
  | 2 => if n < 2 then [100, 0] else [0, 1]
  | k => List.replicate k 0

/-- The first `read` returns one byte only. Example for spindle-control.cc 591-602. -/
def shortRead : World := ⟨turning, fun n => if n = 0 then some 0 else some 3, fun _ _ => 7⟩

/-- C74, not as hoped for: one short read, and all later answers are made of the second byte of one answer and the first of the next.
`Off` switches off power although the motor turns, and the controller never reported anything else. -/
theorem C74_short_read : (off shortRead 5 ⟨0, 0, [], []⟩).map Line.log =
      some [.write [0xe0], .write [0xa1, 21], .write [0xa1, 21], .power false] ∧
    (∀ n b, (shortRead.ans n b).length = answerLength b) ∧ ∀ n, reported shortRead n ≠ 0 := by
  refine ⟨by decide, ?_, ?_⟩
  · intro n b
    show (turning n b).length = _
    unfold turning
    split
    · rename_i h
      split <;> rw [h] <;> rfl
    · simp
  · intro n
    show int16 (pair (turning n [0xa1, 21])) ≠ 0
    unfold turning
    simp only [answerLength]
    split <;> decide

/-- The controller is gone: every `read` fails. Example for spindle-control.cc 591-602. -/
def gone (junk : Nat → Nat → Nat) : World := ⟨fun _ _ => [], fun _ => none, junk⟩

/-- C74, not as hoped for: if `read` fails, the speed is whatever the stack held. Zero there, and `Off` believes that the motor stands;
anything else that stays, and it never returns. -/
theorem C74_read_fails (fuel : Nat) (l : Line) :
    (off (gone fun _ _ => 0) fuel l).map Line.log = some (l.log ++ [.write [0xe0], .write [0xa1, 21], .power false]) ∧
    off (gone fun _ _ => 7) fuel l = none := by
  constructor
  · unfold off await
    simp [getVariable, receive, gone, send, pair, int16, power, List.range_succ]
  · have key : ∀ fuel l, await (gone fun _ _ => 7) (fun a => decide (a = 0)) fuel l = none := by
      intro fuel
      induction fuel with
      | zero =>
        intro l
        unfold await
        simp [getVariable, receive, gone, send, pair, int16, List.range_succ]
      | succ fuel ih =>
        intro l
        unfold await
        have := ih
        simp only [gone] at this
        simp [getVariable, receive, gone, send, pair, int16, List.range_succ, this]
    unfold off
    rw [key]
    rfl

/-- C74, not as hoped for: if the controller does not answer, `Off` does not return. -/
theorem C74_no_answer (W : World) (ha : ∀ n b, W.ans n b = []) (hr : ∀ n, W.got n ≠ none) (fuel : Nat) (l : Line) (hq : l.queue = []) :
    off W fuel l = none := by
  have hv : ∀ id l, l.queue = [] → getVariable W id l = none := by
    intro id l hl
    unfold getVariable receive
    have : (send W [0xa1, id] l).queue = [] := by simp [send, hl, ha]
    rw [this]
    cases hg : W.got (send W [0xa1, id] l).reads with
    | none => exact absurd hg (hr _)
    | some g => simp
  unfold off await
  rw [hv _ _ (by simp [send, hq, ha])]
  rfl

end BeagleG.Spindle.Wire

namespace BeagleG.Machine

variable {F β σ : Type}

/-- C74, not as hoped for: an emergency stop begins with switching off the spindle, and as long as this does not return the motors stay
enabled and the other outputs as they are. -/
theorem C74_estop_waits (e : Env F β σ) {sp : SpindleCtl F σ} (h : e.spindle = some sp) (hs : ∀ s, sp.off s = none) (hard : Bool)
    (s : State F β σ) : setEstop e hard s = none := by
  have h1 : setSpindleOff e s = none := by
    unfold setSpindleOff
    rw [h]
    show (halt e s).bind _ = none
    cases halt e s with
    | none => rfl
    | some x =>
      show (spindleDo e sp.off) x.2 = none
      unfold spindleDo
      rw [hs]
      rfl
  show (setSpindleOff e s).bind _ = none
  rw [h1]
  rfl

end BeagleG.Machine
