import Verif.Props.ArraySets
import Verif.Props.ArrayWriters
import Verif.Props.Attributes
import Verif.Props.Axes
import Verif.Props.Binary
import Verif.Props.Bytes
import Verif.Props.Calls
import Verif.Props.Cmaps
import Verif.Props.CmapsHsv
import Verif.Props.CommandLine
import Verif.Props.Comparisons
import Verif.Props.Compression
import Verif.Props.Constructors
import Verif.Props.Copies
import Verif.Props.Cosmo
import Verif.Props.CosmoChain
import Verif.Props.CosmoFactor
import Verif.Props.CosmoReduce
import Verif.Props.Cosmology
import Verif.Props.Dataset
import Verif.Props.Dispatch
import Verif.Props.FactorOps
import Verif.Props.FactorRules
import Verif.Props.FieldInfo
import Verif.Props.Fields
import Verif.Props.Figures
import Verif.Props.Floating
import Verif.Props.FloatingCuts
import Verif.Props.FloatingGrowth
import Verif.Props.FloatingImages
import Verif.Props.FloatingPeriodic
import Verif.Props.Folds
import Verif.Props.FormulaRows
import Verif.Props.Formulas
import Verif.Props.Frame
import Verif.Props.FrameSlice
import Verif.Props.Groups
import Verif.Props.Handles
import Verif.Props.Header
import Verif.Props.Image
import Verif.Props.ImageFrame
import Verif.Props.ImageLaws
import Verif.Props.ImageLinear
import Verif.Props.ImageParts
import Verif.Props.ImageScales
import Verif.Props.Kernel
import Verif.Props.LineOfSight
import Verif.Props.LinearAlgebra
import Verif.Props.Mapping
import Verif.Props.Mask
import Verif.Props.MaskLaws
import Verif.Props.MaskNames
import Verif.Props.MaskedImage
import Verif.Props.MatrixProducts
import Verif.Props.Memory
import Verif.Props.Names
import Verif.Props.Nearest
import Verif.Props.Neutrinos
import Verif.Props.Opening
import Verif.Props.PeriodicSphere
import Verif.Props.Power
import Verif.Props.Powers
import Verif.Props.ProgramRows
import Verif.Props.Programs
import Verif.Props.PropertyBounds
import Verif.Props.Ranges
import Verif.Props.Refusals
import Verif.Props.Renormalised
import Verif.Props.Reread
import Verif.Props.RereadPrograms
import Verif.Props.Rotation
import Verif.Props.RoundedBounds
import Verif.Props.RoundedCuts
import Verif.Props.RoundedFrames
import Verif.Props.RoundedMask
import Verif.Props.RoundedPipelines
import Verif.Props.RoundedPrograms
import Verif.Props.RoundedRegions
import Verif.Props.RoundedRows
import Verif.Props.RoundedSubsets
import Verif.Props.RowArrays
import Verif.Props.RowScripts
import Verif.Props.SelectionRows
import Verif.Props.Selections
import Verif.Props.Sequences
import Verif.Props.Session
import Verif.Props.ShapedFormulas
import Verif.Props.ShapedRows
import Verif.Props.Sharing
import Verif.Props.Sizes
import Verif.Props.Slices
import Verif.Props.Smoothing
import Verif.Props.SmoothingLengths
import Verif.Props.Spatial
import Verif.Props.Spectrum
import Verif.Props.SpectrumLaws
import Verif.Props.Statistics
import Verif.Props.StatisticsFile
import Verif.Props.StoredNumbers
import Verif.Props.Subsampled
import Verif.Props.Subset
import Verif.Props.SubsetChain
import Verif.Props.SubsetImage
import Verif.Props.SubsetScripts
import Verif.Props.SubsetTree
import Verif.Props.Text
import Verif.Props.Tree
import Verif.Props.TypeScripts
import Verif.Props.TypedPrograms
import Verif.Props.UfuncMethods
import Verif.Props.Ufuncs
import Verif.Props.UnitFormulas
import Verif.Props.UnitProgramRows
import Verif.Props.UnitPrograms
import Verif.Props.Units
import Verif.Props.Values
import Verif.Props.VolumeVis
import Verif.Props.Weighted
import Verif.Props.Writer
import Verif.Props.WriterHeader
import Verif.Props.WriterObject
import Verif.Props.WriterTables
