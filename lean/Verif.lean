import Verif.Model.Basic
import Verif.Model.Time
import Verif.Model.Cycle
import Verif.Spec.Cycle
import Verif.Lemmas.Time
import Verif.Lemmas.Cycle
import Verif.Lemmas.Drive
import Verif.Props.Time
import Verif.Props.Cycle
import Verif.Model.Pairs
import Verif.Lemmas.Pairs
import Verif.Props.Pairs
import Verif.Lemmas.Basic
import Verif.Model.Coord
import Verif.Spec.Coord
import Verif.Lemmas.Coord
import Verif.Props.Coord
import Verif.Model.Load
import Verif.Props.Load
import Verif.Model.Dual
import Verif.Lemmas.Dual
import Verif.Props.Dual
import Verif.Model.Vectors
import Verif.Spec.Vectors
import Verif.Lemmas.Vectors
import Verif.Lemmas.Sphere
import Verif.Props.Vectors
import Verif.Props.Pole
import Verif.Model.Scaling
import Verif.Props.Scaling
import Verif.Props.ScaleVector
import Verif.Props.SetOcb
import Verif.Props.SetOcbMore
import Verif.Model.Correction
import Verif.Props.Correction
import Verif.Model.Files
import Verif.Props.Files
import Verif.Model.Dmsp
import Verif.Props.Dmsp
import Verif.Props.DmspFiles
import Verif.Model.Strptime
import Verif.Model.TimeText
import Verif.Lemmas.Text
import Verif.Props.TimeText
import Verif.Props.ConvertTime
import Verif.Props.FmtLen
import Verif.Model.Vort
import Verif.Model.VortOut
import Verif.Props.Vort
import Verif.Props.VortOut
import Verif.Model.Supermag
import Verif.Props.Supermag
import Verif.Props.SupermagDrive
import Verif.Model.Track
import Verif.Props.Track
import Verif.Model.Pysat
import Verif.Model.Meta
import Verif.Props.Meta
import Verif.Props.MetaMore
import Verif.Props.PysatNames
import Verif.Props.PysatData
import Verif.Props.PysatPlan
import Verif.Props.PysatRows
import Verif.Model.Grid
import Verif.Props.Grid
import Verif.Model.Ascii
import Verif.Props.Ascii
import Verif.Props.AsciiMore
import Verif.Model.SmagOut
import Verif.Props.SmagOut
import Verif.Props.SmagOutMore
import Verif.Model.VectMag
import Verif.Props.VectMag
import Verif.Props.VectMagMore
import Verif.Model.Init
import Verif.Props.Init
import Verif.Props.InitText
import Verif.Model.VectText
import Verif.Props.VectRepr
import Verif.Props.VectStr
import Verif.Model.Fetch
import Verif.Props.Fetch
import Verif.Props.FetchFiles
import Verif.Props.FetchNames
import Verif.Model.DualInit
import Verif.Props.InitShow
import Verif.Props.DualInit
import Verif.Props.DualText
import Verif.Model.Mixed
import Verif.Props.Mixed
import Verif.Props.MixedAdjust
import Verif.Model.VectSet
import Verif.Props.VectHist
import Verif.Props.Cursor
import Verif.Model.Double
import Verif.Props.Double
import Verif.Props.RangeDouble
import Verif.Props.TimeDouble
import Verif.Props.SoyDouble
import Verif.Props.RadDouble
import Verif.Model.Where
import Verif.Props.Where
import Verif.Model.OutFile
import Verif.Model.Whole
import Verif.Props.OutFile
import Verif.Props.Whole
import Verif.Model.Reselect
import Verif.Lemmas.Reselect
import Verif.Props.Reselect
import Verif.Model.VectOps
import Verif.Props.VectOps
import Verif.Model.Geo
import Verif.Props.Geo
import Verif.Props.GeoDual
import Verif.Model.Trace
import Verif.Props.Trace
import Verif.Model.SetDual
import Verif.Props.SetDual
import Verif.Props.SetDualMore
import Verif.Model.FloatTol
import Verif.Props.FloatTol
import Verif.Model.SelDict
import Verif.Props.SelDict
import Verif.Model.SmagDual
import Verif.Props.SmagDual
import Verif.Model.DualArgs
import Verif.Props.DualArgs
import Verif.Props.DualOther
import Verif.Model.FloatDelta
import Verif.Props.FloatDelta
import Verif.Props.CoordError
import Verif.Props.CoordMix
import Verif.Model.BoundLon
import Verif.Props.BoundLon
import Verif.Model.DualGrid
import Verif.Props.DualGrid
import Verif.Model.ScaleDouble
import Verif.Props.ScaleDouble
import Verif.Model.CoordDouble
import Verif.Props.CoordDouble
import Verif.Model.HavDouble
import Verif.Props.HavDouble
import Verif.Model.PoleDouble
import Verif.Props.PoleDouble
import Verif.Model.TurnDouble
import Verif.Props.TurnDouble
import Verif.Model.QuadDouble
import Verif.Props.QuadDouble
import Verif.Model.BoundDouble
import Verif.Model.DualDouble
import Verif.Model.SaveAll
import Verif.Model.DmspText
import Verif.Model.DmspCsv
import Verif.Props.BoundDouble
import Verif.Props.DualDouble
import Verif.Props.SaveAll
import Verif.Props.FileBack
import Verif.Props.DmspText
import Verif.Props.DmspCsv
import Verif.Model.OutText
import Verif.Props.OutText
import Verif.Model.PysatOcb
import Verif.Model.PysatVect
import Verif.Model.PysatDual
import Verif.Model.PysatGeo
import Verif.Model.PysatGeoDual
import Verif.Model.XData
import Verif.Props.XData
import Verif.Props.PysatOcb
import Verif.Props.PysatVect
import Verif.Props.PysatDual
import Verif.Props.PysatSouth
import Verif.Props.PysatGeo
import Verif.Props.PysatGeoDual
