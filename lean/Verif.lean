import Verif.Base
import Verif.Ranges.Props
import Verif.Mapping.Props
import Verif.Rebalance.Props
import Verif.Store.Props
import Verif.Transfer.Props
import Verif.PartitionUZ.Props
import Verif.NameDouble.Props
import Verif.Serial.NameDouble
import Verif.Conc.Props
import Verif.Getters.Props
import Verif.Getters.Logs
import Verif.Protocol.Props
import Verif.State.Props
import Verif.SelOut.Read
import Verif.Components.Groups
import Verif.Mixing.SolutionProps
import Verif.Mixing.Partition
import Verif.InitCond.Cases
import Verif.Gas.Cases
import Verif.Setters.Cases
import Verif.Registry.Cases
import Verif.BMI.Cases
import Verif.AutoOutput.Cases
import Verif.Yaml.Cases
import Verif.Dump.Cases
import Verif.CellList.Cases
import Verif.FString.Cases
import Verif.Pack.Cases
import Verif.Scatter.Cases
import Verif.Steps.Cases
import Verif.Routing.Cases
import Verif.Boundary.Cases
import Verif.CheckCells.Props
import Verif.Utility.Props
import Verif.Species.Props
import Verif.Species.BoundaryProps
import Verif.Formula.Props
import Verif.Formula.Weight
import Verif.CellCopy.Props
import Verif.SelNav.Props
import Verif.Raw.ExchangeProps
import Verif.Raw.SolutionProps
import Verif.Raw.GasProps
import Verif.Raw.BlocksProps
import Verif.Raw.KineticsProps
import Verif.Raw.PPProps
import Verif.Raw.SSProps
import Verif.Raw.SurfaceProps
import Verif.Raw.FileProps
import Verif.Serial.CellsProps
import Verif.MpiMove.Props
import Verif.Lockstep.Comm
import Verif.Lockstep.CommLemmas
import Verif.Lockstep.Prog
import Verif.Lockstep.Model
import Verif.Lockstep.Together
import Verif.Lockstep.Served
import Verif.Lockstep.Spec
import Verif.Lockstep.Setters
import Verif.Lockstep.Cells
import Verif.Lockstep.Hoare
import Verif.Lockstep.Calls
import Verif.Lockstep.Calls2
import Verif.Lockstep.Calls3
import Verif.Lockstep.Moves
import Verif.Lockstep.Run
import Verif.Lockstep.Session
import Verif.Lockstep.Sched
import Verif.Lockstep.Verdict
import Verif.Lockstep.SchedBuf
import Verif.Lockstep.Ends
import Verif.Lockstep.EndsLemmas
import Verif.Lockstep.Demo
import Verif.Lockstep.Props
import Verif.Lockstep.Violations
import Verif.Lockstep.ReadingsLemmas
import Verif.Lockstep.Readings
import Verif.IPq.Model
import Verif.IPq.Spec
import Verif.IPq.Lemmas
import Verif.IPq.Runs
import Verif.IPq.Sessions
import Verif.IPq.Keeps
import Verif.IPq.Holds
import Verif.IPq.Props
import Verif.IPq.Demo
import Verif.IPq.Violations
import Verif.Input.Model
import Verif.Input.Spec
import Verif.Input.Lemmas
import Verif.Input.Printed
import Verif.Input.Props
import Verif.Input.Demo
import Verif.Input.Violations
import Verif.Pbasic.Model
import Verif.Pbasic.Spec
import Verif.Pbasic.Ops
import Verif.Pbasic.Fuel
import Verif.Pbasic.Expr
import Verif.Pbasic.Struct
import Verif.Pbasic.Sim
import Verif.Pbasic.Skip
import Verif.Pbasic.Lines
import Verif.Pbasic.Exec
import Verif.Pbasic.DataSpec
import Verif.Pbasic.Data
import Verif.Pbasic.Cells
import Verif.Pbasic.Jump
import Verif.Pbasic.Props
import Verif.Pbasic.Demo
import Verif.Pbasic.Violations
import Verif.Pbasic.Lex
import Verif.Pbasic.LexSpec
import Verif.Pbasic.LexProof
import Verif.Pbasic.LexLines
import Verif.Pbasic.LexCase
import Verif.Pbasic.LexProps
import Verif.Pbasic.LexDemo
import Verif.CellRun.Props
import Verif.CellRun.Demo
import Verif.CellRun.ThreadProps
import Verif.Equation.Model
import Verif.Equation.Spec
import Verif.Equation.Combine
import Verif.Equation.Check
import Verif.Equation.Charge
import Verif.Equation.Read
import Verif.Equation.Tokens
import Verif.Equation.Props
import Verif.Equation.Balance
import Verif.Reaction.Model
import Verif.Reaction.Spec
import Verif.Reaction.Combine
import Verif.Reaction.Rewrite
import Verif.Reaction.Phases
import Verif.Reaction.Props
import Verif.Reaction.MassModel
import Verif.Reaction.Mass
import Verif.Reaction.Couple
import Verif.Reaction.MassProps
import Verif.Reaction.Ends
import Verif.Kinetics.Model
import Verif.Kinetics.Spec
import Verif.Kinetics.Steps
import Verif.Kinetics.Loop
import Verif.Kinetics.Facts
import Verif.Kinetics.Times
import Verif.Kinetics.Props
import Verif.Kinetics.Cases
import Verif.Assemble.Model
import Verif.Assemble.Spec
import Verif.Assemble.Sums
import Verif.Assemble.Solids
import Verif.Assemble.Ends
import Verif.Assemble.Each
import Verif.Assemble.Limits
import Verif.Assemble.Props
import Verif.Assemble.Props2
import Verif.Assemble.Cases
import Verif.Reuse.Model
import Verif.Reuse.Spec
import Verif.Reuse.Sites
import Verif.Reuse.Fits
import Verif.Reuse.Quick
import Verif.Reuse.Props
import Verif.Reuse.Cases
import Verif.CArrays.Model
import Verif.CArrays.Spec
import Verif.CArrays.Lemmas
import Verif.CArrays.Props
import Verif.Print.Props
import Verif.CTables.Props
import Verif.Files.Props
import Verif.Agree.Props
import Verif.CBoundary.Props
import Verif.CInit.Model
import Verif.CInit.Props
import Verif.CInit.OneModel
import Verif.CInit.OneProps
import Verif.Catalog.Model
import Verif.Catalog.Props
import Verif.Python.Model
import Verif.Python.Props
import Verif.Python.SetModel
import Verif.Python.SetProps
import Verif.Catalog.CModel
import Verif.Catalog.CProps
import Verif.Axioms
