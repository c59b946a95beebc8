import Verif.Props.Parse
import Verif.Props.Markdown
import Verif.Props.Block
import Verif.Props.Skipped
import Verif.Props.Compare
import Verif.Props.Run
import Verif.Props.Text
import Verif.Props.Page
import Verif.Props.Site
import Verif.Props.Merge
import Verif.Props.Save
import Verif.Props.Read
import Verif.Props.Output
import Verif.Props.Cli
import Verif.Props.Rebuild
import Verif.Props.Startup
import Verif.Model.Serve
import Verif.Model.Plugins
import Verif.Model.Js
import Verif.Spec.Js
import Verif.Proof.Serve
import Verif.Proof.Plugins
import Verif.Proof.Js
import Verif.Props.Serve
import Verif.Props.Plugins
import Verif.Props.Fetch
import Verif.Props.Fetched
import Verif.Props.Js
import Verif.Model.New
import Verif.Spec.New
import Verif.Proof.New
import Verif.Proof.NewSite
import Verif.Props.New
import Verif.Model.Display
import Verif.Spec.Display
import Verif.Proof.Place
import Verif.Proof.Display
import Verif.Props.Place
import Verif.Spec.Start
import Verif.Proof.Start
import Verif.Props.Start
import Verif.Spec.Bench
import Verif.Proof.Proper
import Verif.Props.Bench
import Verif.Spec.Order
import Verif.Proof.Order
import Verif.Proof.OrderBuild
import Verif.Proof.OrderRead
import Verif.Props.Order
import Verif.Model.Imgopt
import Verif.Spec.FileTypes
import Verif.Proof.FileTypes
import Verif.Proof.PluginOrder
import Verif.Props.FileTypes
import Verif.Spec.Whole
import Verif.Proof.Whole
import Verif.Props.Whole
import Verif.Proof.Last
import Verif.Spec.Tables
import Verif.Props.Tables
import Verif.Proof.Panic
import Verif.Spec.Faults
import Verif.Proof.Refuse
import Verif.Proof.Fault
import Verif.Props.Fault
import Verif.Model.Report
import Verif.Proof.Report
import Verif.Props.Report
import Verif.Model.Demo
import Verif.Props.Demo
import Verif.Model.Terminal
import Verif.Spec.Terminal
import Verif.Spec.Terms
import Verif.Proof.Terminal
import Verif.Proof.Written
import Verif.Proof.Bar
import Verif.Props.Terminal
import Verif.Props.Loading
import Verif.Proof.Blame
import Verif.Spec.ReadFail
import Verif.Proof.ReadFail
import Verif.Props.ReadFail
import Verif.Spec.Content
import Verif.Proof.Content
import Verif.Spec.Succeeds
import Verif.Proof.Succeeds
import Verif.Props.Succeeds
import Verif.Spec.Command
import Verif.Props.Command
import Verif.Spec.Source
import Verif.Props.Source
import Verif.Spec.Shown
import Verif.Spec.Sound
import Verif.Spec.Sheet
import Verif.Proof.Sheet
import Verif.Props.Shown
import Verif.Props.Sound
import Verif.Props.Sheet
import Verif.Spec.Finds
import Verif.Proof.Finds
import Verif.Props.Finds
import Verif.Spec.Screen
import Verif.Proof.Screen
import Verif.Props.Screen
import Verif.Proof.Mean
import Verif.Props.Figures
import Verif.Model.JsLoad
import Verif.Spec.JsPlugin
import Verif.Props.JsPlugin
import Verif.Spec.Move
import Verif.Proof.Move
import Verif.Proof.MoveTree
import Verif.Proof.MoveSave
import Verif.Proof.MoveRun
import Verif.Props.Move
import Verif.Spec.Mode
import Verif.Proof.Mode
import Verif.Proof.ModeText
import Verif.Proof.ModeRun
import Verif.Props.Mode
import Verif.Model.Memory
import Verif.Props.Memory
import Verif.Props.Refers
import Verif.Spec.Rename
import Verif.Proof.Rename
import Verif.Proof.RenameTree
import Verif.Proof.RenameRun
import Verif.Props.Rename
import Verif.Spec.Changed
import Verif.Spec.Fields
import Verif.Proof.Tell
import Verif.Proof.TellTree
import Verif.Proof.Fields
import Verif.Props.Fields
import Verif.Spec.Alike
import Verif.Proof.Alike
import Verif.Proof.Probe
import Verif.Props.Alike
import Verif.Model.CliTest
import Verif.Props.CliTest
import Verif.Props.Texts
import Verif.Model.JsState
import Verif.Proof.JsState
import Verif.Props.JsState
import Verif.Model.JsCall
import Verif.Props.JsCall
import Verif.Spec.Beside
import Verif.Proof.Beside
import Verif.Props.Beside
import Verif.Spec.Single
import Verif.Proof.Single
import Verif.Proof.Tamed
import Verif.Props.Single
import Verif.Props.Sure
import Verif.Spec.Nests
import Verif.Props.Nests
import Verif.Props.Tests
import Verif.Props.Harness
