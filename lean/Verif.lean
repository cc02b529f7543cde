import Verif.RingDeque.Props
import Verif.Idiv.Props
import Verif.StepGen.Props
import Verif.StepGen.SimProps
import Verif.MotorOps.Props
import Verif.MotorOps.StatusProps
import Verif.PruQueue.Props
import Verif.PruQueue.AbortProps
import Verif.Planner.AssertProps
import Verif.Planner.RealProps
import Verif.LineBuf.Props
import Verif.LineBuf.StreamerProps
import Verif.FdMux.Props
import Verif.FdMux.Signals
import Verif.Text.StringProps
import Verif.Text.ViewProps
import Verif.Text.LexerProps
import Verif.Expr.Props
import Verif.Parser.ParamProps
import Verif.Parser.CurveProps
import Verif.Parser.FlowProps
import Verif.Parser.ProgramProps
import Verif.Parser.OriginProps
import Verif.Parser.ArcProps
import Verif.Parser.SplineProps
import Verif.ParamFile.Decimal
import Verif.Planner.JoinProps
import Verif.MotorOps.EnableProps
import Verif.Hardware.MotorProps
import Verif.Hardware.SwitchProps
import Verif.Spindle.Props
import Verif.Spindle.SmcProps
import Verif.Pwm.Props
import Verif.Pwm.Timers
import Verif.Pwm.TimersProps
import Verif.Machine.Model
import Verif.Machine.Trace
import Verif.Machine.LimitProps
import Verif.Machine.PlannerRel
import Verif.Machine.HomeProps
import Verif.Machine.HomingProps
import Verif.Machine.AssertProps
import Verif.Machine.SyncProps
import Verif.Machine.ProbeProps
import Verif.Machine.ProbeExample
import Verif.Machine.Report
import Verif.Machine.ReportProps
import Verif.Machine.ReportExample
import Verif.Machine.EstopProps
import Verif.Machine.StopProps
import Verif.Machine.FeedProps
import Verif.Machine.IdleProps
import Verif.Machine.Example
import Verif.Adc.Model
import Verif.Adc.Props
import Verif.Log.Model
import Verif.Log.Props
import Verif.Config.Model
import Verif.Config.Props
import Verif.Config.ExprProps
import Verif.Stats.Model
import Verif.Stats.Props
import Verif.Stats.Example
import Verif.EndToEnd.Sim
import Verif.EndToEnd.Layout
import Verif.EndToEnd.Model
import Verif.EndToEnd.Props
import Verif.EndToEnd.Example
import Verif.StepGen.RampProps
import Verif.MotorOps.Timing
import Verif.MotorOps.RampTiming
import Verif.MotorOps.TimingProps
import Verif.MotorOps.SplitTiming
import Verif.EndToEnd.TimedProps
import Verif.Setup.Model
import Verif.Setup.FileProps
import Verif.Setup.MachineProps
import Verif.Setup.IntProps
import Verif.Setup.HardwareProps
import Verif.Setup.MappingProps
import Verif.Setup.Example
import Verif.Setup.InitProps
import Verif.Setup.Summary
import Verif.Setup.StartProps
import Verif.Setup.RunProps
import Verif.Setup.Shipped
import Verif.FdMux.Induct
import Verif.LineBuf.SuccessProps
import Verif.LineBuf.ReadFileProps
import Verif.Server.Model
import Verif.Server.Props
import Verif.Server.SessionProps
import Verif.Server.Main
import Verif.Server.Violations
import Verif.Firmware.Isa
import Verif.Firmware.Program
import Verif.Firmware.Assemble
import Verif.Firmware.Exec
import Verif.Firmware.Routines
import Verif.Firmware.Delay
import Verif.Firmware.Pass
import Verif.Firmware.Step
import Verif.Firmware.Segment
import Verif.Firmware.Queue
import Verif.Firmware.Round
import Verif.Firmware.Rounds
import Verif.Firmware.Capes
import Verif.Firmware.Props
import Verif.Firmware.Timing
import Verif.Firmware.Speed
import Verif.Gpio.Model
import Verif.Gpio.Props
import Verif.Gpio.Shared
import Verif.Gpio.Mapping
import Verif.PruHw.Model
import Verif.PruHw.Props
import Verif.PruHw.Events
import Verif.Life.Model
import Verif.Life.Props
import Verif.Life.Options
import Verif.Life.Help
import Verif.Life.OptionsProps
import Verif.Life.OptionsMeaning
import Verif.Machine.DryRun
import Verif.Spindle.DryRun
import Verif.Spindle.Setup
import Verif.Spindle.Wire
import Verif.Parser.ReportProps
import Verif.Whole.Example
import Verif.Whole.ChainProps
import Verif.Whole.ChainExample
import Verif.Conformance.Parser
import Verif.Conformance.Text
import Verif.Conformance.Planner
import Verif.Conformance.Config
import Verif.Conformance.Queue
import Verif.Conformance.Arc
import Verif.Conformance.Machine
import Verif.Hershey.Props
import Verif.Visualizer.TightProps
import Verif.Visualizer.GrayProps
import Verif.Visualizer.Example
import Verif.Visualizer.Layout
import Verif.Visualizer.Title
import Verif.Visualizer.Page
import Verif.Visualizer.PathProps
import Verif.Visualizer.Colours
import Verif.Text.Number
import Verif.Text.NumberProps
import Verif.Text.NumberUse
import Verif.Sim.Audio
import Verif.Sim.AudioProps
import Verif.Sim.Table
import Verif.Sim.TableProps
import Verif.Sim.Remarks
import Verif.Planner.AuxProps
import Verif.Machine.CodesProps
import Verif.Machine.CodesExample
import Verif.Machine.SpindleProps
import Verif.Machine.SpindleExample
import Verif.Parser.SystemProps
import Verif.Stats.Tool
import Verif.Stats.ToolProps
import Verif.Visualizer.Options
import Verif.Visualizer.OptionsProps
import Verif.Visualizer.OptionsMore
import Verif.Visualizer.Measures
import Verif.Visualizer.MeasuresProps
import Verif.Visualizer.Ps
import Verif.Visualizer.PsProps
