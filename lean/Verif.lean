import Verif.Props.Grid
import Verif.Props.Flat
import Verif.Props.Discovery
import Verif.Props.SaddleNet
import Verif.Props.Walk
import Verif.Props.Run
import Verif.Props.Basin
import Verif.Props.RunBasin
import Verif.Props.Containers
import Verif.Props.Graph
import Verif.Props.Serial
import Verif.Props.RunFamily
import Verif.Props.Util
import Verif.Props.Loader
import Verif.Props.Kml
import Verif.Props.DivideTree
import Verif.Props.RunSerial
import Verif.Props.Faithful
import Verif.Props.Tree
import Verif.Props.Points
import Verif.Props.Views
import Verif.Props.BasinExact
import Verif.Props.BasinTerrain
import Verif.Props.History
import Verif.Props.Measure
import Verif.Props.Loaded
import Verif.Props.Purged
import Verif.Props.WalkAgain
import Verif.Props.WalkTwice
import Verif.Props.Tiles
import Verif.Props.Heights
import Verif.Props.World
import Verif.Props.Places
import Verif.Props.MapObj
import Verif.Props.Prominence
import Verif.Props.Resaved
import Verif.Props.Piece
import Verif.Props.RunHeights
import Verif.Props.Marker
import Verif.Props.Misplaced
import Verif.Props.Ascent
import Verif.Model.Drawing
import Verif.Spec.Drawing
import Verif.Props.Drawing
import Verif.Model.Outline
import Verif.Spec.Outline
import Verif.Props.Outline
import Verif.Spec.Turned
import Verif.Proof.Turned
import Verif.Props.Turned
import Verif.Spec.Rounding
import Verif.Props.Rounding
import Verif.Spec.Elsewhere
import Verif.Proof.Elsewhere
import Verif.Props.Elsewhere
import Verif.Model.DrawingSaved
import Verif.Spec.DrawingSaved
import Verif.Props.DrawingExact
import Verif.Props.DrawingSaved
import Verif.Conform.Raster
import Verif.Conform.Points
import Verif.Conform.Rebuild
import Verif.Conform.Network
import Verif.Conform.Basin
import Verif.Conform.Kml
import Verif.Spec.Errors
import Verif.Props.Errors
import Verif.Spec.Above
import Verif.Props.Above
import Verif.Spec.Change
import Verif.Props.Change
import Verif.Spec.Shrink
import Verif.Props.Shrink
import Verif.Props.KeySaddles
import Verif.Props.DivideProminence
import Verif.Props.Apart
import Verif.Props.Levels
import Verif.Proof.Sizes
import Verif.Props.Sizes
import Verif.Model.Edits
import Verif.Proof.Edits
import Verif.Props.Edits
import Verif.Proof.EditsSaved
import Verif.Props.EditsSaved
import Verif.Proof.BasinLocal
import Verif.Proof.RunLocal
import Verif.Props.Inland
import Verif.Props.TileProminence
import Verif.Props.Finished
import Verif.Props.Floats
import Verif.Proof.FloatRun
import Verif.Props.FloatRun
import Verif.Spec.RunLinks
import Verif.Proof.RunLinks
import Verif.Props.RunLinks
import Verif.Props.Always
import Verif.Props.AlwaysNet
import Verif.Spec.Listed
import Verif.Proof.Listed
import Verif.Props.Listed
import Verif.Model.LoadedMap
import Verif.Proof.LoadedMap
import Verif.Props.LoadedMap
import Verif.Props.PseudoOrder
import Verif.Props.BasinExempt
import Verif.Props.RunoffPlace
import Verif.Props.BasinNumber
import Verif.Props.EdgeSummit
import Verif.Props.SerialExact
import Verif.Spec.FileProminence
import Verif.Props.FileProminence
import Verif.Proof.DivideRename
import Verif.Props.DivideLoaded
import Verif.Proof.DivideAgain
import Verif.Proof.DivideOrder
import Verif.Proof.DivideExtra
import Verif.Props.DivideAgain
import Verif.Proof.DivideUnits
import Verif.Props.DivideUnits
import Verif.Props.SummitsSet
import Verif.Proof.DisqEdge
import Verif.Proof.BasinInner
import Verif.Props.ContainerLists
import Verif.Props.InnerNetwork
