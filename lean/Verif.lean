import Verif.Lemmas.Affine
import Verif.Lemmas.Colour
import Verif.Lemmas.Comparison
import Verif.Lemmas.Covariance
import Verif.Lemmas.Degenerate
import Verif.Lemmas.Demo
import Verif.Lemmas.Dict
import Verif.Lemmas.Divide
import Verif.Lemmas.Draw
import Verif.Lemmas.Except
import Verif.Lemmas.Extents
import Verif.Lemmas.Figure
import Verif.Lemmas.Final
import Verif.Lemmas.Format
import Verif.Lemmas.Frame
import Verif.Lemmas.Hdi
import Verif.Lemmas.Histogram2d
import Verif.Lemmas.Kde
import Verif.Lemmas.LayoutText
import Verif.Lemmas.Make
import Verif.Lemmas.Marginal
import Verif.Lemmas.MaxLoop
import Verif.Lemmas.Mirror
import Verif.Lemmas.Numpy
import Verif.Lemmas.Panels
import Verif.Lemmas.PlotDemo
import Verif.Lemmas.Shift
import Verif.Lemmas.ThreePoint
import Verif.Lemmas.TwoPoint
import Verif.Lemmas.Vee
import Verif.Model.Asked
import Verif.Model.Basic
import Verif.Model.Chain
import Verif.Model.Colorbars
import Verif.Model.Colormap
import Verif.Model.Colors
import Verif.Model.CompTable
import Verif.Model.Comparison
import Verif.Model.Consumer
import Verif.Model.ContourLabels
import Verif.Model.Contours
import Verif.Model.Covariance
import Verif.Model.Degenerate
import Verif.Model.Diagnostic
import Verif.Model.Emcee
import Verif.Model.Examples
import Verif.Model.Figure
import Verif.Model.Flt
import Verif.Model.Format
import Verif.Model.Frame
import Verif.Model.Grid
import Verif.Model.Helpers
import Verif.Model.Histogram2d
import Verif.Model.History
import Verif.Model.Kde
import Verif.Model.Keywords
import Verif.Model.Latex
import Verif.Model.LatexTable
import Verif.Model.Layout
import Verif.Model.Legend
import Verif.Model.Marginal
import Verif.Model.Messages
import Verif.Model.Numpy
import Verif.Model.Offsets
import Verif.Model.PlotDist
import Verif.Model.Plotter
import Verif.Model.Points
import Verif.Model.RcParams
import Verif.Model.Request
import Verif.Model.Shades
import Verif.Model.Sources
import Verif.Model.Spectral
import Verif.Model.Stack
import Verif.Model.Summary
import Verif.Model.Truth
import Verif.Model.TruthLocation
import Verif.Model.Walks
import Verif.Model.Watermark
import Verif.Props.Affine
import Verif.Props.AllColumns
import Verif.Props.Asked
import Verif.Props.AskedArea
import Verif.Props.AutoColours
import Verif.Props.Axes
import Verif.Props.Bands
import Verif.Props.Bandwidth
import Verif.Props.Beyond
import Verif.Props.BlindRequest
import Verif.Props.Blinded
import Verif.Props.Captions
import Verif.Props.Chain
import Verif.Props.ChainNames
import Verif.Props.ChainOrder
import Verif.Props.ChosenTable
import Verif.Props.Colorbars
import Verif.Props.Colormap
import Verif.Props.Colour
import Verif.Props.ColumnOrder
import Verif.Props.Columns
import Verif.Props.CompTable
import Verif.Props.Company
import Verif.Props.Comparison
import Verif.Props.Config
import Verif.Props.ContourLabels
import Verif.Props.ContourRuns
import Verif.Props.Contours
import Verif.Props.Covariance
import Verif.Props.Coverage
import Verif.Props.CriterionUnits
import Verif.Props.Degenerate
import Verif.Props.Diagnostic
import Verif.Props.DiagnosticNames
import Verif.Props.Divide
import Verif.Props.Drawn
import Verif.Props.DrawnContours
import Verif.Props.Emcee
import Verif.Props.EqualTailed
import Verif.Props.ErrorBars
import Verif.Props.Examples
import Verif.Props.Extents
import Verif.Props.Format
import Verif.Props.GelmanRubin
import Verif.Props.Geweke
import Verif.Props.Given
import Verif.Props.Grid
import Verif.Props.GridBins
import Verif.Props.Hdi
import Verif.Props.Histogram2d
import Verif.Props.Inside
import Verif.Props.Invariance
import Verif.Props.Isolation
import Verif.Props.Kde
import Verif.Props.Keywords
import Verif.Props.LatexTable
import Verif.Props.Layout
import Verif.Props.Legend
import Verif.Props.Levels
import Verif.Props.ManyRows
import Verif.Props.Marginal
import Verif.Props.Mask
import Verif.Props.MatrixTable
import Verif.Props.MaxPosterior
import Verif.Props.MaxSummary
import Verif.Props.MegKde
import Verif.Props.Messages
import Verif.Props.Modes
import Verif.Props.MovedFigures
import Verif.Props.NamedFigures
import Verif.Props.Names
import Verif.Props.Narrowest
import Verif.Props.Nested
import Verif.Props.Normalisation
import Verif.Props.Offsets
import Verif.Props.OnlyParameters
import Verif.Props.OrderFigures
import Verif.Props.OtherColumns
import Verif.Props.Override
import Verif.Props.PanelRanges
import Verif.Props.PlotDist
import Verif.Props.Points
import Verif.Props.Power
import Verif.Props.Ranges
import Verif.Props.RcParams
import Verif.Props.Rebuild
import Verif.Props.Registry
import Verif.Props.RenamedFigures
import Verif.Props.Reorder
import Verif.Props.Request
import Verif.Props.Rivals
import Verif.Props.RowCriteria
import Verif.Props.RowLabels
import Verif.Props.SameView
import Verif.Props.Shades
import Verif.Props.Shading
import Verif.Props.SharedColumns
import Verif.Props.Shift
import Verif.Props.ShiftCovariance
import Verif.Props.Siblings
import Verif.Props.SignConvention
import Verif.Props.SignHdi
import Verif.Props.Simpson
import Verif.Props.Smoothing
import Verif.Props.Sources
import Verif.Props.Splitting
import Verif.Props.Stack
import Verif.Props.SummaryRows
import Verif.Props.SummaryScale
import Verif.Props.Symmetric
import Verif.Props.SymmetricMax
import Verif.Props.TableText
import Verif.Props.Thinning
import Verif.Props.Titles
import Verif.Props.Triangle
import Verif.Props.Truth
import Verif.Props.TruthLines
import Verif.Props.TruthLocation
import Verif.Props.TruthStyles
import Verif.Props.VarNames
import Verif.Props.Visible
import Verif.Props.WalkPanels
import Verif.Props.WalkerLook
import Verif.Props.WalkerSums
import Verif.Props.WalkersApart
import Verif.Props.Walks
import Verif.Props.Watermark
import Verif.Spec.Axes
import Verif.Spec.Chain
import Verif.Spec.Colour
import Verif.Spec.Comparison
import Verif.Spec.Config
import Verif.Spec.Contours
import Verif.Spec.Covariance
import Verif.Spec.Diagnostic
import Verif.Spec.Figure
import Verif.Spec.Format
import Verif.Spec.Kde
import Verif.Spec.Marginal
import Verif.Spec.Order
import Verif.Spec.Ranges
import Verif.Spec.Registry
import Verif.Spec.Thinning
