import Verif.Props.CoordRange
import Verif.Props.CoordArray
import Verif.Props.CoordLimits
import Verif.Props.Chunk
import Verif.Props.ChunkInstr
import Verif.Props.Filter
import Verif.Props.Spool
import Verif.Props.CoordManager
import Verif.Props.Patch
import Verif.Props.PatchShape
import Verif.Props.Index
import Verif.Props.IndexUpdate
import Verif.Props.PatchOps
import Verif.Props.Window
import Verif.Props.Align
import Verif.Props.Taper
import Verif.Props.Correlate
import Verif.Props.Equality
import Verif.Props.Aggregate
import Verif.Props.Registry
import Verif.Props.Resource
import Verif.Props.Frozen
import Verif.Props.Gaps
import Verif.Props.Concat
import Verif.Props.Attrs
import Verif.Props.History
import Verif.Props.Time
import Verif.Props.Merge
import Verif.Props.Dasdae
import Verif.Props.Arith
import Verif.Props.Calculus
import Verif.Props.Fourier
import Verif.Props.Mute
import Verif.Props.Units
import Verif.Props.FilterUnits
import Verif.Props.Interpolate
import Verif.Props.Resample
import Verif.Props.Moving
import Verif.Props.Hampel
import Verif.Props.Scale
import Verif.Props.SpoolSelect
import Verif.Props.FileSpool
import Verif.Props.TauP
import Verif.Props.Slope
import Verif.Props.PassFilter
import Verif.Props.WindowFilter
import Verif.Props.Trigger
import Verif.Props.Hilbert
import Verif.Props.Dispersion
import Verif.Props.Whiten
import Verif.Props.Stft
import Verif.Props.Relative
import Verif.Props.PatchAttrs
import Verif.Props.UnitArith
import Verif.Props.Febus
import Verif.Props.Tdms
import Verif.Props.Sintela
import Verif.Props.Terra15
import Verif.Props.Segy
import Verif.Props.Where
import Verif.Props.SelectTotal
import Verif.Props.H5Simple
import Verif.Props.ProdML
import Verif.Props.Instruments
import Verif.Props.Stack
import Verif.Props.Attach
import Verif.Props.Snap
import Verif.Props.Convert
import Verif.Props.XmlBinary
import Verif.Props.DasHdf5
import Verif.Props.Radians
import Verif.Props.Export
import Verif.Props.Obspy
import Verif.Props.ArrayFunc
import Verif.Props.Sentek
import Verif.Props.Sor
import Verif.Props.Spectro
import Verif.Props.XmlDict
import Verif.Props.Namespace
