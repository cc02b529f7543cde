/-!
# The instructions of the PRU

The firmware (`/repo/src/motor-interface-pru.p`, `idiv.hp`, `pru-generic-io-routines.hp`) is written for the
programmable real-time unit of the AM335x. This file is the machine: registers, the instructions that the firmware
uses, their effect and the number of cycles they take. It follows the reference guide of the PRU; nothing of it is in
the repository, so it is part of the trusted base.

* 32 registers of 32 bit; operands can be bytes or 16 bit words of them.
* Every instruction takes one cycle; accesses to memory take longer, by a number of cycles that the machine does not
  fix (`Env.lat`). `MOV` of a constant beyond 16 bit is two instructions (`LDI` of both halves) for the assembler
  `pasm`; here it is one that takes two cycles.
* What a load yields is not fixed either (`Env.ans`): memory is shared with the host, inputs come from outside. All
  accesses are recorded with the cycle in which they begin.
* The program counter counts lines of the program, not words.
-/
namespace BeagleG.Firmware

/-- Part of a register: number, first byte, number of bytes; `r1.w0` is `⟨1, 0, 2⟩`. -/
structure Fld where
  r : Nat
  off : Nat := 0
  len : Nat := 4
deriving DecidableEq, Repr

/-- Second operand: part of a register or a constant. -/
inductive Opd where
  | fld (f : Fld)
  | imm (n : Nat)
deriving DecidableEq, Repr

/-- Where a load or store goes: the data memory of the PRU (constant register C24), its configuration registers
(C4), or an address on the bus. -/
inductive Space where
  | dram | cfg | bus
deriving DecidableEq, Repr

/-- The instructions; `L` is what a jump refers to. The names are those of the assembler. -/
inductive Instr (L : Type) where
  | mov (d : Fld) (o : Opd)
  | add (d s : Fld) (o : Opd)
  | adc (d s : Fld) (o : Opd)
  | sub (d s : Fld) (o : Opd)
  | lsl (d s : Fld) (o : Opd)
  | lsr (d s : Fld) (o : Opd)
  | set (d s : Fld) (o : Opd)
  | clr (d s : Fld) (o : Opd)
  /-- `ZERO &d, n`: n bytes from `d` on -/
  | zero (d : Fld) (n : Nat)
  | qbeq (l : L) (s : Fld) (o : Opd)
  | qbne (l : L) (s : Fld) (o : Opd)
  /-- branch if the second operand is less than the first -/
  | qblt (l : L) (s : Fld) (o : Opd)
  | qbbs (l : L) (s : Fld) (o : Opd)
  | qbbc (l : L) (s : Fld) (o : Opd)
  | qba (l : L)
  | jmp (l : L)
  /-- `CALL`: the address of the next instruction to `r30.w0` -/
  | call (l : L)
  | ret
  /-- `LBCO`, `LBBO`: n bytes to the registers from `d` on -/
  | load (d : Fld) (sp : Space) (a : Opd) (n : Nat)
  /-- address in a register plus constant -/
  | store (s : Fld) (sp : Space) (a : Opd) (n : Nat)
  /-- `MOV R31.b0, n`: an event for the host -/
  | event (n : Nat)
  | halt
deriving DecidableEq, Repr

/-- Jump targets replaced. -/
def Instr.map {L M : Type} (f : L → M) : Instr L → Instr M
  | .mov d o => .mov d o
  | .add d s o => .add d s o
  | .adc d s o => .adc d s o
  | .sub d s o => .sub d s o
  | .lsl d s o => .lsl d s o
  | .lsr d s o => .lsr d s o
  | .set d s o => .set d s o
  | .clr d s o => .clr d s o
  | .zero d n => .zero d n
  | .qbeq l s o => .qbeq (f l) s o
  | .qbne l s o => .qbne (f l) s o
  | .qblt l s o => .qblt (f l) s o
  | .qbbs l s o => .qbbs (f l) s o
  | .qbbc l s o => .qbbc (f l) s o
  | .qba l => .qba (f l)
  | .jmp l => .jmp (f l)
  | .call l => .call (f l)
  | .ret => .ret
  | .load d sp a n => .load d sp a n
  | .store s sp a n => .store s sp a n
  | .event n => .event n
  | .halt => .halt

/-- What can be observed from outside. -/
inductive Ev where
  | load (sp : Space) (addr : Nat) (bytes : List Nat)
  | store (sp : Space) (addr : Nat) (bytes : List Nat)
  | event (n : Nat)
deriving DecidableEq, Repr

/-- The surroundings: byte `j` of the answer to access number `n`, and how long access number `n` takes beyond one
cycle. -/
structure Env where
  ans : Nat → Nat → Nat
  lat : Nat → Nat

/-- The state of the processor. -/
structure St where
  pc : Nat
  /-- the registers -/
  r : Nat → Nat
  /-- the carry -/
  c : Nat
  /-- number of accesses so far -/
  n : Nat
  /-- cycles so far -/
  t : Nat
  /-- what happened, with the cycle in which it began -/
  log : List (Nat × Ev)

/-- Value of a part of a register. -/
def get (r : Nat → Nat) (f : Fld) : Nat := r f.r / 256 ^ f.off % 256 ^ f.len

/-- Value of an operand. -/
def val (r : Nat → Nat) : Opd → Nat
  | .fld f => get r f
  | .imm n => n

/-- Part of a register written; the value is truncated. -/
def put (r : Nat → Nat) (f : Fld) (v : Nat) : Nat → Nat := fun k =>
  if k = f.r then
    if f.len = 4 then v % 2 ^ 32
    else r k % 256 ^ f.off + v % 256 ^ f.len * 256 ^ f.off + r k / 256 ^ (f.off + f.len) * 256 ^ (f.off + f.len)
  else r k

/-- Byte `j` of a register file. -/
def byteOf (r : Nat → Nat) (j : Nat) : Nat := r (j / 4) / 256 ^ (j % 4) % 256

/-- `n` bytes written to the register file from byte `a` on. -/
def putBytes (r : Nat → Nat) (a n : Nat) (b : Nat → Nat) : Nat → Nat := fun k =>
  if 4 * k + 4 ≤ a ∨ a + n ≤ 4 * k then r k
  else
    let byte := fun i => if a ≤ 4 * k + i ∧ 4 * k + i < a + n then b (4 * k + i - a) % 256 else byteOf r (4 * k + i)
    byte 0 + byte 1 * 256 + byte 2 * 256 ^ 2 + byte 3 * 256 ^ 3

/-- Number of the first byte of a part of a register. -/
def Fld.byte (f : Fld) : Nat := 4 * f.r + f.off

/-- Next line, after `k` cycles. -/
def St.next (s : St) (k : Nat) : St := { s with pc := s.pc + 1, t := s.t + k }

/-- A branch. -/
def St.branch (s : St) (b : Bool) (l : Nat) : St := { s with pc := if b then l else s.pc + 1, t := s.t + 1 }

/-- The result of an arithmetic instruction; the carry is the bit beyond the width of the destination. -/
def St.alu (s : St) (d : Fld) (v : Nat) : St :=
  { s.next 1 with r := put s.r d v, c := v / 256 ^ d.len % 2 }

/-- One instruction; `none` after `HALT`. -/
def exec (env : Env) (s : St) : Instr Nat → Option St
  | .mov d o =>
    let cost := match o with
      | .imm n => if n < 2 ^ 16 then 1 else 2
      | .fld _ => 1
    some { s.next cost with r := put s.r d (val s.r o) }
  | .add d a o => some (s.alu d (get s.r a + val s.r o))
  | .adc d a o => some (s.alu d (get s.r a + val s.r o + s.c))
  | .sub d a o =>
    some { s.alu d (get s.r a + (2 ^ 32 - val s.r o)) with c := if get s.r a < val s.r o then 1 else 0 }
  | .lsl d a o => some { s.next 1 with r := put s.r d (get s.r a * 2 ^ (val s.r o % 32)) }
  | .lsr d a o => some { s.next 1 with r := put s.r d (get s.r a / 2 ^ (val s.r o % 32)) }
  | .set d a o => some { s.next 1 with r := put s.r d (get s.r a ||| 2 ^ (val s.r o % 32)) }
  | .clr d a o =>
    some { s.next 1 with r := put s.r d (if (get s.r a).testBit (val s.r o % 32) then get s.r a - 2 ^ (val s.r o % 32) else get s.r a) }
  | .zero d n => some { s.next 1 with r := putBytes s.r d.byte n (fun _ => 0) }
  | .qbeq l a o => some (s.branch (get s.r a == val s.r o) l)
  | .qbne l a o => some (s.branch (get s.r a != val s.r o) l)
  | .qblt l a o => some (s.branch (decide (val s.r o < get s.r a)) l)
  | .qbbs l a o => some (s.branch ((get s.r a).testBit (val s.r o % 32)) l)
  | .qbbc l a o => some (s.branch (!(get s.r a).testBit (val s.r o % 32)) l)
  | .qba l => some (s.branch true l)
  | .jmp l => some (s.branch true l)
  | .call l => some { s.branch true l with r := put s.r ⟨30, 0, 2⟩ (s.pc + 1) }
  | .ret => some (s.branch true (get s.r ⟨30, 0, 2⟩))
  | .load d sp a n =>
    some { s.next (1 + env.lat s.n) with
      r := putBytes s.r d.byte n (env.ans s.n), n := s.n + 1,
      log := s.log ++ [(s.t, .load sp (val s.r a) ((List.range n).map fun j => env.ans s.n j % 256))] }
  | .store d sp a n =>
    some { s.next (1 + env.lat s.n) with
      n := s.n + 1,
      log := s.log ++ [(s.t, .store sp (val s.r a) ((List.range n).map fun j => byteOf s.r (d.byte + j)))] }
  | .event k => some { s.next 1 with log := s.log ++ [(s.t, .event k)] }
  | .halt => none

/-- One step of a program; `none` if it has ended. -/
def step (prog : List (Instr Nat)) (env : Env) (s : St) : Option St :=
  match prog[s.pc]? with
  | none => none
  | some i => exec env s i

/-- The program gets from one state to another. -/
inductive Star (prog : List (Instr Nat)) (env : Env) : St → St → Prop where
  | refl (s : St) : Star prog env s s
  | step {s s1 s2 : St} (h : step prog env s = some s1) (h2 : Star prog env s1 s2) : Star prog env s s2

end BeagleG.Firmware
