import Verif.Spindle.Setup
import Verif.Spindle.Wire
import Verif.Life.Model
import Verif.Machine.DryRun

/-!
# C73: the spindle in a dry run

`main` creates the spindle (`/repo/src/machine-control.cc` 543-551) before it looks at `-n` (577-589), and
`Spindle::CreateFromConfig` (`/repo/src/spindle-control.cc` 612-641) does not know the option.
-/
namespace BeagleG.Setup

open Text Hardware

variable {F : Type}

/-- C73. Which spindle there is does not depend on whether the hardware was set up. -/
theorem C73_spindle_created (c : SpindleCfg) (h : Hw F) (opens : List Byte → Bool) (b : Bool) :
    createSpindle c { h with initialized := b } opens = createSpindle c h opens := rfl

/-- C73, not as hoped for: with `-n` the spindle is created as without, and on a hardware that was never set up one with a controller
sends all commands of the start over its serial line, then the one to stop the motor. -/
theorem C73_serial (c : SpindleCfg) (h : Hw F) (opens : List Byte → Bool) (ht : c.type = ascii "pololu-smc")
    (ha : hasAuxMapping h .spindle = true) (hc : c.allowCcw = false) (ho : opens c.port = true) :
    createSpindle c { h with initialized := false } opens = some .pololu ∧
    (∀ (W : Spindle.Wire.World) (_ : Spindle.Wire.Calm W) (fuel : Nat) (l' : Spindle.Wire.Line),
      Spindle.Wire.init W c.maxAccel c.maxDecel fuel ⟨0, 0, [], []⟩ = some l' →
        ∃ k, l'.log = Spindle.Wire.initLog c.maxAccel c.maxDecel ++ [.write [0xe0]] ++ Spindle.Wire.asks (k + 1) ++ [.power false]) ∧
    (∀ (o : Life.Opts) (a : Life.Answers) (p : Life.Proc), o.dryRun = true → o.file.isSome ≠ o.port → a.configOk = true →
      a.spindle = true → (⟨.spindle, p⟩ : Life.Entry) ∈ Life.main o a p) := by
  refine ⟨(C74_pololu c _ opens).2 ⟨ht, ha, (fun h => by rw [hc] at h; cases h), ho⟩, fun W hW fuel l' hi => ?_,
    fun o a p _ hf hk hs => ?_⟩
  · rw [Spindle.Wire.C74_init hW _ _ _ _ rfl] at hi
    obtain ⟨k, hl, -⟩ := Spindle.Wire.C74_power_off_partial hW fuel _ l' rfl hi
    exact ⟨k, by simpa using hl⟩
  · unfold Life.main
    rw [if_neg hf, if_neg (by rw [hk]; decide), if_pos hs]
    simp

/-- A file with a controller gives such a configuration, and the start with a controller that answers returns. -/
example : (configureSpindle .default (ascii "[spindle]\ntype = pololu-smc\n")).2.type = ascii "pololu-smc" ∧
    (configureSpindle .default (ascii "[spindle]\ntype = pololu-smc\n")).2.allowCcw = false ∧
    (Spindle.Wire.init Spindle.Wire.slowing 0 0 9 ⟨0, 0, [], []⟩).isSome := by decide +kernel

end BeagleG.Setup
