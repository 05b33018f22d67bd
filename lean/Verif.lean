import Verif.Props.Ticker
import Verif.Props.Mask
import Verif.Props.Evaluator
import Verif.Props.Diff
import Verif.Props.BondGen
import Verif.Props.MathUtils
import Verif.Props.Lattice
import Verif.Props.Points
import Verif.Props.Periodic
import Verif.Props.Crystal
import Verif.Props.History
import Verif.Props.Protocol
import Verif.Props.BondCalc
import Verif.Props.Cones
import Verif.Props.PDFGrid
import Verif.Props.Fft
import Verif.Props.Attributes
import Verif.Props.Registry
import Verif.Props.AtomUtils
import Verif.Props.Tables
import Verif.Props.BV
import Verif.Props.Overlap
import Verif.Props.Neighborhoods
import Verif.Props.OverlapGradient
import Verif.Props.Envelope
import Verif.Props.PeakShape
import Verif.Props.PeakWidth
import Verif.Props.LineReader
import Verif.Props.TypeMask
import Verif.Props.Wrappers
import Verif.Props.PairCounter
import Verif.Props.KindDiff
import Verif.Props.Debye
import Verif.Props.Setters
import Verif.Props.DebyeSetters
import Verif.Props.DebyePDF
import Verif.Props.PDFCache
import Verif.Props.PDFEndToEnd
import Verif.Props.PDFPeriodic
import Verif.Model.CrystalMsd
import Verif.Props.CrystalSum
import Verif.Props.PDFCrystal
import Verif.Props.SpaceGroup
import Verif.Props.CrystalTensor
import Verif.Props.CrystalExample
import Verif.Model.Composite
import Verif.Props.Composite
import Verif.Model.Copies
import Verif.Props.Copies
import Verif.Props.HistoryClick
import Verif.Model.Reload
import Verif.Props.Reload
import Verif.Model.ObjCryst
import Verif.Props.ObjCryst
import Verif.Model.ScatteringData
import Verif.Props.ScatteringData
import Verif.Model.Rounding
import Verif.Props.Rounding
import Verif.Model.Double
import Verif.Props.Double
import Verif.Model.Buffers
import Verif.Props.Buffers
import Verif.Model.InPlace
import Verif.Props.InPlace
import Verif.Model.Equality
import Verif.Props.Equality
import Verif.Model.Archive
import Verif.Lemmas.Archive
import Verif.Props.Archive
import Verif.Model.RuntimePath
import Verif.Props.RuntimePath
import Verif.Model.Queries
import Verif.Props.Queries
import Verif.Model.Components
import Verif.Props.Components
import Verif.Model.GenObject
import Verif.Lemmas.GenObject
import Verif.Props.GenObject
import Verif.Model.GenCrystal
import Verif.Lemmas.GenCrystal
import Verif.Props.GenCrystal
import Verif.Model.Edits
import Verif.Props.Edits
import Verif.Model.NanDiff
import Verif.Props.NanDiff
import Verif.Model.Input
import Verif.Model.BVFile
import Verif.Props.Input
import Verif.Props.BVFile
import Verif.Model.BVSum
import Verif.Props.BVSum
import Verif.Model.OverlapSum
import Verif.Props.Geometry
import Verif.Props.OverlapSum
import Verif.Props.OverlapSumGrad
import Verif.Props.GeometryList
import Verif.Model.BondSum
import Verif.Props.BondSum
import Verif.Model.StruGeom
import Verif.Props.BondHistory
import Verif.Props.DebyeLimits
import Verif.Model.DebyeSum
import Verif.Props.DebyeSum
import Verif.Props.GeomVectors
import Verif.Model.PDFHistory
import Verif.Lemmas.PDFHistory
import Verif.Lemmas.KindLawful
import Verif.Lemmas.PairGeometry
import Verif.Props.PDFHistory
import Verif.Props.DataFiles
import Verif.Model.DebyeHistory
import Verif.Lemmas.DebyeHistory
import Verif.Props.DebyeHistory
import Verif.Props.DebyeStale
import Verif.Model.PDFOutput
import Verif.Props.PDFOutput
import Verif.Model.DebyeOutput
import Verif.Props.DebyeOutput
import Verif.Props.PDFSetters
import Verif.Model.PDFModels
import Verif.Props.PDFModels
import Verif.Lemmas.HistoryOn
import Verif.Model.DebyeModels
import Verif.Props.DebyeModels
import Verif.Props.DebyeRstep
import Verif.Props.MaskCalls
import Verif.Props.MaskedPDF
import Verif.Props.MaskedDebye
import Verif.Props.StaleReads
import Verif.Props.DebyeReads
import Verif.Model.BVHistory
import Verif.Props.BVHistory
import Verif.Model.OverlapHistory
import Verif.Props.OverlapHistory
import Verif.Props.SameAtoms
import Verif.Props.Redescribe
import Verif.Props.SameResults
import Verif.Props.SamePDF
import Verif.Props.SameExample
import Verif.Props.SameDebye
import Verif.Props.SameBonds
import Verif.Props.Parts
import Verif.Props.PartsMore
import Verif.Props.PDFAnisotropy
import Verif.Props.DebyeNew
import Verif.Props.Amounts
import Verif.Props.AmountsDebye
import Verif.Props.AmountsBV
import Verif.Props.Ranges
import Verif.Props.QueryValues
import Verif.Props.CounterHistory
import Verif.Props.Factors
import Verif.Props.FactorsDebye
import Verif.Props.FactorsBV
import Verif.Props.DoubleCmp
import Verif.Props.Threads
import Verif.Props.DoubleTrig
import Verif.Props.DoubleLattice
import Verif.Props.DoubleNorm
import Verif.Props.DoubleBonds
import Verif.Props.DoubleCell
import Verif.Props.BVEqual
