import Verif.Log.Model
import Mathlib.Tactic.Tauto
/-!
# C98: the log
-/
namespace BeagleG.Log

open Text (Byte)
open Setup (ascii)

/-! ### The beginning of a line -/

theorem pad_length (w n : Nat) : (pad w n).length = w := by
  induction w generalizing n with
  | zero => rfl
  | succ w ih => unfold pad; rw [List.length_append, ih]; rfl

theorem pad_digit (w n : Nat) : ∀ c ∈ pad w n, 48 ≤ c.toNat ∧ c.toNat ≤ 57 := by
  induction w generalizing n with
  | zero => intro c hc; cases hc
  | succ w ih =>
    intro c hc
    unfold pad at hc
    rcases List.mem_append.1 hc with h | h
    · exact ih _ c h
    · rw [List.mem_singleton] at h
      subst h
      rw [UInt8.toNat_ofNat']
      have : n % 10 < 10 := Nat.mod_lt _ (by decide)
      omega

theorem pad_injective (w : Nat) : ∀ a b, a < 10 ^ w → b < 10 ^ w → pad w a = pad w b → a = b := by
  induction w with
  | zero => intro a b ha hb _; simp at ha hb; omega
  | succ w ih =>
    intro a b ha hb h
    unfold pad at h
    obtain ⟨h1, h2⟩ := List.append_inj' h rfl
    have d := ih (a / 10) (b / 10) (by rw [Nat.pow_succ] at ha; omega) (by rw [Nat.pow_succ] at hb; omega) h1
    have e : (UInt8.ofNat (48 + a % 10)).toNat = (UInt8.ofNat (48 + b % 10)).toNat := by
      have := List.cons.inj h2
      rw [this.1]
    rw [UInt8.toNat_ofNat', UInt8.toNat_ofNat'] at e
    omega

/-- The numbers have as many digits as there is room for. -/
def Time.Ok (t : Time) : Prop :=
  t.year < 10000 ∧ t.month < 100 ∧ t.day < 100 ∧ t.hour < 100 ∧ t.minute < 100 ∧ t.second < 100 ∧ t.micros < 1000000

theorem text_length (t : Time) : t.text.length = 26 := by
  simp [Time.text, pad_length]

theorem text_injective {s t : Time} (hs : s.Ok) (ht : t.Ok) (h : s.text = t.text) : s = t := by
  obtain ⟨s1, s2, s3, s4, s5, s6, s7⟩ := hs
  obtain ⟨t1, t2, t3, t4, t5, t6, t7⟩ := ht
  unfold Time.text at h
  have len : ∀ (w a b : Nat), (pad w a).length = (pad w b).length := fun w a b => by rw [pad_length, pad_length]
  obtain ⟨h, e7⟩ := List.append_inj' h (len ..)
  obtain ⟨h, -⟩ := List.append_inj' h rfl
  obtain ⟨h, e6⟩ := List.append_inj' h (len ..)
  obtain ⟨h, -⟩ := List.append_inj' h rfl
  obtain ⟨h, e5⟩ := List.append_inj' h (len ..)
  obtain ⟨h, -⟩ := List.append_inj' h rfl
  obtain ⟨h, e4⟩ := List.append_inj' h (len ..)
  obtain ⟨h, -⟩ := List.append_inj' h rfl
  obtain ⟨h, e3⟩ := List.append_inj' h (len ..)
  obtain ⟨h, -⟩ := List.append_inj' h rfl
  obtain ⟨h, e2⟩ := List.append_inj' h (len ..)
  obtain ⟨e1, -⟩ := List.append_inj' h rfl
  have p1 := pad_injective 4 _ _ s1 t1 e1
  have p2 := pad_injective 2 _ _ s2 t2 e2
  have p3 := pad_injective 2 _ _ s3 t3 e3
  have p4 := pad_injective 2 _ _ s4 t4 e4
  have p5 := pad_injective 2 _ _ s5 t5 e5
  have p6 := pad_injective 2 _ _ s6 t6 e6
  have p7 := pad_injective 6 _ _ s7 t7 e7
  cases s; cases t
  simp_all

theorem text_plain (t : Time) : ∀ c ∈ t.text, c ≠ 10 ∧ c ≠ 27 := by
  have hp : ∀ w n, ∀ c ∈ pad w n, c ≠ 10 ∧ c ≠ 27 := by
    intro w n c hc
    have := pad_digit w n c hc
    constructor <;> (rintro rfl; revert this; decide)
  intro c hc
  unfold Time.text at hc
  simp only [List.mem_append, List.mem_singleton] at hc
  rcases hc with ((((((((((((h | h) | h) | h) | h) | h) | h) | h) | h) | h) | h) | h) | h)
  all_goals first | exact hp _ _ _ h | (subst h; decide)

theorem header_plain (colour : Bool) (level : Level) (t : Time) : ∀ c ∈ header colour level t, c ≠ 10 := by
  intro c hc
  unfold header at hc
  simp only [List.mem_append, List.mem_singleton] at hc
  rcases hc with ((((h | h) | h) | h) | h) | h
  · revert c; cases colour <;> cases level <;> decide
  · subst h; decide
  · exact (text_plain t c h).1
  · subst h; decide
  · revert c; cases colour <;> decide
  · subst h; decide

/-- **C98, time**: year, month and day with hyphens, a blank, hour, minute and second with colons, a point, microseconds; digits in all other
places. -/
theorem C98_time (t : Time) : t.text[4]? = some '-'.toUInt8 ∧ t.text[7]? = some '-'.toUInt8 ∧ t.text[10]? = some ' '.toUInt8 ∧
    t.text[13]? = some ':'.toUInt8 ∧ t.text[16]? = some ':'.toUInt8 ∧ t.text[19]? = some '.'.toUInt8 ∧
    t.text.take 4 = pad 4 t.year ∧ t.text.drop 20 = pad 6 t.micros := by
  have h4 := pad_length 4 t.year
  have h2 := fun n => pad_length 2 n
  have h6 := pad_length 6 t.micros
  have d : ∀ n k, 2 ≤ k → List.drop k (pad 2 n) = [] := fun n k hk => List.drop_eq_nil_of_le (by rw [h2]; exact hk)
  have d4 : List.drop 20 (pad 4 t.year) = [] := List.drop_eq_nil_of_le (by rw [h4]; decide)
  refine ⟨?_, ?_, ?_, ?_, ?_, ?_, ?_, ?_⟩
  iterate 6 simp [Time.text, List.getElem?_append, h4, h2]; decide
  · simp [Time.text, h4]
  · simp [Time.text, h4, h2, List.drop_append, d, d4]

/-- **C98, columns**: without colours every line begins with the level in six columns and the time in 28; lines with the same beginning have
the same level and time. -/
theorem C98_columns (l l' : Level) (t t' : Time) : (header false l t).length = 35 ∧
    header false l t = l.markup false ++ [91] ++ t.text ++ [93, 32] ∧
    (t.Ok → t'.Ok → header false l t = header false l' t' → l = l' ∧ t = t') := by
  have hlen : ∀ l : Level, (l.markup false).length = 6 := by intro l; cases l <;> decide
  refine ⟨?_, ?_, ?_⟩
  · simp [header, markupEnd, text_length, hlen]
  · simp [header, markupEnd]
  · intro h h' e
    unfold header at e
    obtain ⟨e, -⟩ := List.append_inj' e rfl
    obtain ⟨e, -⟩ := List.append_inj' e rfl
    obtain ⟨e, -⟩ := List.append_inj' e rfl
    obtain ⟨e, e2⟩ := List.append_inj' e (by rw [text_length, text_length])
    obtain ⟨e, -⟩ := List.append_inj' e rfl
    refine ⟨?_, text_injective h h' e2⟩
    revert e
    cases l <;> cases l' <;> decide

/-- **C98, colours**: on a terminal the line begins with an escape sequence and all attributes are reset before the message; without
terminal there is no escape character in front of the message. -/
theorem C98_colours (l : Level) (t : Time) : (header true l t).head? = some 27 ∧ esc "[0m" ++ [32] <:+ header true l t ∧
    ∀ c ∈ header false l t, c ≠ 27 := by
  refine ⟨by cases l <;> rfl, ⟨l.markup true ++ [91] ++ t.text ++ [93], by simp [header, markupEnd]⟩, ?_⟩
  intro c hc
  unfold header at hc
  simp only [List.mem_append, List.mem_singleton] at hc
  rcases hc with ((((h | h) | h) | h) | h) | h
  · revert c; cases l <;> decide
  · subst h; decide
  · exact (text_plain t c h).2
  · subst h; decide
  · cases h
  · subst h; decide

/-! ### Messages -/

/-- The message without the newline at its end. -/
def strip (m : List Byte) : List Byte := if alreadyNewline m then m.dropLast else m

/-- One line: what is asked for. -/
def line (colour : Bool) (e : Entry) : List Byte := header colour e.level e.time ++ strip e.msg

theorem written_line (m : List Byte) : m ++ (if alreadyNewline m then [] else [10]) = strip m ++ [10] := by
  unfold strip
  cases h : alreadyNewline m
  · simp
  · simp only [if_true, List.append_nil]
    unfold alreadyNewline at h
    rw [decide_eq_true_eq] at h
    obtain ⟨ys, rfl⟩ := List.getLast?_eq_some_iff.1 h
    simp

/-- **C98, line**: with a file (or another descriptor) each message is one write to it: the beginning of the line, the message, and a newline
exactly if there is none; so the bytes end with one. -/
theorem C98_line_partial (l : Log) (hl : 0 ≤ l.fd) (level : Level) (t : Time) (m : List Byte) :
    log l level t (some m) = some [.write l.fd (header l.colour level t ++ m ++ if alreadyNewline m then [] else [10])] ∧
    header l.colour level t ++ m ++ (if alreadyNewline m then [] else [10]) = line l.colour ⟨level, t, m⟩ ++ [10] := by
  constructor
  · unfold log internal
    rw [if_neg (by omega)]
    rfl
  · rw [List.append_assoc, written_line]
    simp [line]

/-- **C98, system log**: without a file, messages go to the system log with their level, but none of the debugging ones: these are not even
formatted. -/
theorem C98_syslog (l : Log) (hl : l.fd < 0) (level : Level) (t : Time) (m : List Byte) :
    log l level t (some m) = some (if level = .debug then [] else [.syslog level m]) ∧ log l .debug t none = some [] := by
  unfold log
  rw [if_pos hl, if_pos hl]
  refine ⟨?_, rfl⟩
  split <;> rfl

/-- The lines of a file: what is between the newlines, and what remains after the last of them. -/
def linesOf : List Byte → List (List Byte) × List Byte
  | [] => ([], [])
  | c :: cs =>
    let r := linesOf cs
    if c = 10 then ([] :: r.1, r.2)
    else match r.1 with
      | [] => ([], c :: r.2)
      | a :: as => ((c :: a) :: as, r.2)

theorem linesOf_line {a : List Byte} (ha : ∀ c ∈ a, c ≠ 10) (b : List Byte) :
    linesOf (a ++ [10] ++ b) = (a :: (linesOf b).1, (linesOf b).2) := by
  induction a with
  | nil => simp [linesOf]
  | cons c a ih =>
    have hc : c ≠ 10 := ha c (List.mem_cons_self ..)
    simp only [List.cons_append] at ih ⊢
    rw [linesOf, ih fun d hd => ha d (List.mem_cons_of_mem _ hd)]
    simp [hc]

/-- **C98, file**: whatever messages are written, each of them of one line, with a newline at its end or not: the file has exactly one line
for each of them, in their order, and nothing else. -/
theorem C98_file (l : Log) (hl : 0 ≤ l.fd) (es : List Entry) (h : ∀ e ∈ es, ∀ c ∈ strip e.msg, c ≠ 10) :
    ∃ ev, logAll l es = some ev ∧ linesOf (received l.fd ev) = (es.map (line l.colour), []) := by
  induction es with
  | nil => exact ⟨[], rfl, rfl⟩
  | cons e es ih =>
    obtain ⟨ev, h1, h2⟩ := ih fun e' he' => h e' (List.mem_cons_of_mem _ he')
    obtain ⟨a, b⟩ := C98_line_partial l hl e.level e.time e.msg
    refine ⟨_, by rw [logAll, a, h1]; rfl, ?_⟩
    have hr : received l.fd (Event.write l.fd (header l.colour e.level e.time ++ e.msg ++ if alreadyNewline e.msg then [] else [10]) :: ev) =
        line l.colour e ++ [10] ++ received l.fd ev := by
      simp only [received, List.flatMap_cons, if_true]
      rw [b]
    rw [List.singleton_append, hr, linesOf_line, h2]
    · rfl
    · intro c hc
      rcases List.mem_append.1 hc with hc | hc
      · exact header_plain _ _ _ c hc
      · exact h e (List.mem_cons_self ..) c hc

/-- **C98, nothing is lost**: two logs without colours are equal only if they have the same messages, levels and times (up to a newline at the end). -/
theorem C98_readable {fd : Int} (hl : 0 ≤ fd) (es fs : List Entry) (he : ∀ e ∈ es, (∀ c ∈ strip e.msg, c ≠ 10) ∧ e.time.Ok)
    (hf : ∀ e ∈ fs, (∀ c ∈ strip e.msg, c ≠ 10) ∧ e.time.Ok) {ev fv : List Event} (h1 : logAll ⟨fd, false⟩ es = some ev)
    (h2 : logAll ⟨fd, false⟩ fs = some fv) (h : received fd ev = received fd fv) :
    es.map (fun e => (e.level, e.time, strip e.msg)) = fs.map (fun e => (e.level, e.time, strip e.msg)) := by
  obtain ⟨ev', g1, g2⟩ := C98_file ⟨fd, false⟩ hl es fun e h => (he e h).1
  obtain ⟨fv', g3, g4⟩ := C98_file ⟨fd, false⟩ hl fs fun e h => (hf e h).1
  rw [h1] at g1; rw [h2] at g3
  cases g1; cases g3
  simp only at g2 g4
  rw [h, g4] at g2
  have hm : fs.map (line false) = es.map (line false) := (Prod.mk.inj g2).1
  clear g2 g4 h h1 h2
  induction es generalizing fs with
  | nil => cases fs with
    | nil => rfl
    | cons f fs => simp at hm
  | cons e es ih => cases fs with
    | nil => simp at hm
    | cons f fs =>
      simp only [List.map_cons, List.cons.injEq] at hm ⊢
      obtain ⟨m1, m2⟩ := hm
      unfold line at m1
      obtain ⟨k1, k2⟩ := List.append_inj m1 (by rw [(C98_columns _ .info _ e.time).1, (C98_columns _ .info _ e.time).1])
      obtain ⟨k3, k4⟩ := (C98_columns f.level e.level f.time e.time).2.2 (hf f (List.mem_cons_self ..)).2 (he e (List.mem_cons_self ..)).2 k1
      refine ⟨by rw [k2, k3, k4], ?_⟩
      exact ih fs (fun e' h' => he e' (List.mem_cons_of_mem _ h')) (fun e' h' => hf e' (List.mem_cons_of_mem _ h')) m2

/-! ### Where messages go -/

variable (opened : List Byte → Int) (isatty : Int → Bool)

/-- **C98, start**: before anything was set, messages go to the standard error stream, without colours. -/
theorem C98_start (level : Level) (t : Time) (m : List Byte) :
    log .start level t (some m) = some [.write 2 (line false ⟨level, t, m⟩ ++ [10])] := by
  obtain ⟨a, b⟩ := C98_line_partial .start (by decide) level t m
  rw [a, b]
  rfl

/-- **C98, destination**: messages go to the file exactly if a name was given and it could be opened, otherwise to the system log, which was
opened then; only the failed attempt is complained about. Colours are used exactly if the file is a terminal. -/
theorem C98_init (name : Option (List Byte)) :
    (0 ≤ (init opened isatty name .start).1.fd ↔ ∃ n, name = some n ∧ n ≠ [] ∧ 0 ≤ opened n) ∧
    (∀ n, name = some n → n ≠ [] → 0 ≤ opened n → (init opened isatty name .start) = (⟨opened n, isatty (opened n)⟩, [])) ∧
    (Event.openlog ∈ (init opened isatty name .start).2 ↔ (init opened isatty name .start).1.fd < 0) ∧
    (Event.complaint ∈ (init opened isatty name .start).2 ↔ ∃ n, name = some n ∧ n ≠ [] ∧ opened n < 0) := by
  rcases name with _ | _ | ⟨c, n⟩
  · simp [init]
  · simp [init]
  · simp only [init, Option.some.injEq, Log.start]
    by_cases h : opened (c :: n) < 0
    · rw [if_pos h]
      have h' : ¬ 0 ≤ opened (c :: n) := by omega
      refine ⟨⟨fun x => absurd x h', ?_⟩, ?_, ⟨fun _ => h, fun _ => by simp⟩, ⟨fun _ => ⟨_, rfl, by simp, h⟩, fun _ => by simp⟩⟩
      · rintro ⟨_, rfl, _, x⟩; exact absurd x h'
      · rintro _ rfl _ x; exact absurd x h'
    · rw [if_neg h]
      have h' : 0 ≤ opened (c :: n) := by omega
      cases hi : isatty (opened (c :: n))
      · simp only [Bool.false_eq_true, if_false]
        refine ⟨⟨fun _ => ⟨_, rfl, by simp, h'⟩, fun _ => h'⟩, ?_, by simp [h'], ?_⟩
        · rintro _ rfl _ _; rw [hi]
        · simp [h']
      · simp only [if_true]
        refine ⟨⟨fun _ => ⟨_, rfl, by simp, h'⟩, fun _ => h'⟩, ?_, by simp [h'], ?_⟩
        · rintro _ rfl _ _; rw [hi]
        · simp [h']

/-- **C98, the machine control**: after the options were read, the log goes to the file they say (C90), if it can be opened. -/
theorem C98_options {F : Type} (v : Life.Cmd.Vars F) :
    0 ≤ (init opened isatty (if v.daemon then v.logfile else some (v.logfile.getD (ascii "/dev/stderr"))) .start).1.fd ↔
      ∃ n, v.log = some n ∧ 0 ≤ opened n := by
  rw [(C98_init opened isatty _).1]
  unfold Life.Cmd.Vars.log
  dsimp only
  generalize (if v.daemon then v.logfile else some (v.logfile.getD (ascii "/dev/stderr"))) = nm
  constructor
  · rintro ⟨n, rfl, h1, h2⟩
    exact ⟨n, by simp [h1], h2⟩
  · rintro ⟨n, h1, h2⟩
    rcases nm with _ | m
    · cases h1
    · simp only [Option.bind_some] at h1
      split at h1
      · cases h1
      · cases h1
        exact ⟨_, rfl, by assumption, h2⟩

/-- **C98, violated for a second file**: the colours of a terminal stay when another file is chosen that is none. -/
theorem C98_again : ∃ (opened : List Byte → Int) (isatty : Int → Bool), isatty 4 = false ∧
    (init opened isatty (some (ascii "b")) (init opened isatty (some (ascii "a")) .start).1).1 = ⟨4, true⟩ := by
  refine ⟨fun n => if n = ascii "a" then 3 else 4, fun fd => fd = 3, by decide, by decide⟩

/-- **C98, violated without memory**: the length -1 is taken for a length, and memory outside is read. -/
theorem C98_memory (l : Log) (level : Level) (t : Time) : log l level t none = none ↔ 0 ≤ l.fd := by
  unfold log internal
  by_cases h : l.fd < 0
  · rw [if_pos h]
    constructor
    · intro h'; split at h' <;> cases h'
    · intro h'; omega
  · rw [if_neg h]
    exact ⟨fun _ => by omega, fun _ => rfl⟩

/-- A message of two lines in one call gives two lines, of which the second has no beginning. -/
theorem C98_two_lines : ∃ m, (∀ l t, (linesOf (line false ⟨l, t, m⟩ ++ [10])).1 = [header false l t ++ [65], [66]]) := by
  refine ⟨[65, 10, 66], fun l t => ?_⟩
  have e : line false ⟨l, t, [65, 10, 66]⟩ ++ [10] = (header false l t ++ [65]) ++ [10] ++ [66, 10] := by
    simp [line, strip, alreadyNewline]
  rw [e, linesOf_line]
  · rfl
  · intro c hc
    rcases List.mem_append.1 hc with hc | hc
    · exact header_plain _ _ _ c hc
    · rw [List.mem_singleton] at hc; subst hc; decide

example : received 3 ((logAll ⟨3, false⟩ [⟨.info, ⟨2026, 11, 16, 8, 5, 9, 42⟩, ascii "Hello"⟩]).getD []) =
    ascii "INFO  [2026-11-16 08:05:09.000042] Hello\n" := by decide +kernel

end BeagleG.Log
