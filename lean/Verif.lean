import Verif.Base.Res
import Verif.Base.UMap
import Verif.Naming.Props
import Verif.Collection.Props
import Verif.Net.Props
import Verif.Layer.MapProps
import Verif.Layer.Props
import Verif.Basic.LookupProps
import Verif.Basic.SmallProps
import Verif.Design.RegistryProps
import Verif.Design.IterProps
import Verif.Design.ExtractProps
import Verif.Hier.Props
import Verif.Util.ConnProps
import Verif.Util.UtilProps
import Verif.Geom.SliceProps
import Verif.Geom.CutProps
import Verif.Geom.GridProps
import Verif.Thermal.SetRProps
import Verif.Thermal.MnaProps
import Verif.Thermal.SteadyProps
import Verif.Thermal.SamplerProps
import Verif.Thermal.BondsProps
import Verif.Thermal.GridIndexProps
import Verif.Thermal.GridBuildProps
import Verif.Thermal.GridSolveProps
import Verif.Thermal.TableProps
import Verif.Thermal.PrismIndexProps
import Verif.Thermal.PrismBuildProps
import Verif.Thermal.PrismMeshProps
import Verif.Thermal.PrismNetProps
import Verif.Thermal.StackPrismMeshProps
import Verif.Thermal.StackPrismNetProps
import Verif.Thermal.StackBlockProps
import Verif.Thermal.PrismCapProps
import Verif.Thermal.QueryProps
import Verif.Thermal.StaticProps
import Verif.Thermal.ReduceProps
import Verif.Basic.PadProps
import Verif.Gds.BufProps
import Verif.Gds.RecordProps
import Verif.Gds.ReaderProps
import Verif.Gds.ImportProps
import Verif.Thermal.MorProps
import Verif.KiCad.ParserProps
import Verif.KiCad.BoardProps
import Verif.Dmc.Props
import Verif.Ctm.HeaderProps
import Verif.Ctm.StackProps
import Verif.Ctm.GridProps
import Verif.Shape.PadInst
import Verif.Xfl.LayerProps
import Verif.Xfl.ViaProps
import Verif.Xfl.ShapeProps
import Verif.Xfl.DefProps
import Verif.Design.DatabaseProps
import Verif.Design.CopyProps
import Verif.Design.MountModel
import Verif.Design.MountProps
import Verif.Thermal.GridPowerModel
import Verif.Thermal.GridPowerProps
import Verif.Geom.CutExModel
import Verif.Geom.CutExProps
import Verif.Thermal.TransientModel
import Verif.Thermal.TransientProps
import Verif.Util.MergerModel
import Verif.Util.MergerProps
import Verif.Util.WireModel
import Verif.Util.WireProps
import Verif.Thermal.SimModel
import Verif.Thermal.SimProps
import Verif.Thermal.NetlistModel
import Verif.Thermal.NetlistProps
import Verif.Thermal.VtkModel
import Verif.Thermal.VtkProps
import Verif.Ctm.LayoutModel
import Verif.Ctm.LayoutProps
import Verif.Thermal.GridExtModel
import Verif.Thermal.GridExtProps
import Verif.Xfl.ParserModel
import Verif.Xfl.ParserSpec
import Verif.Xfl.ParserBase
import Verif.Xfl.ParserComb
import Verif.Xfl.ParserObj
import Verif.Xfl.ParserRoute
import Verif.Xfl.ParserRouteProps
import Verif.Xfl.ParserDef
import Verif.Xfl.ParserSec
import Verif.Xfl.ParserFile
import Verif.Xfl.ParserFileProps
import Verif.KiCad.ObjModel
import Verif.KiCad.ObjSpec
import Verif.KiCad.ObjNode
import Verif.KiCad.ObjProps
import Verif.Ctm.DataModel
import Verif.Ctm.DataProps
import Verif.Ctm.PackProps
import Verif.Dmc.FileModel
import Verif.Dmc.FileProps
import Verif.Gds.MapFileModel
import Verif.Gds.MapFileProps
import Verif.Dmc.WriteModel
import Verif.Dmc.WriteProps
import Verif.Thermal.PrismPowerModel
import Verif.Thermal.PrismPowerProps
import Verif.Thermal.PrismGeoModel
import Verif.Thermal.PrismGeoProps
import Verif.Thermal.StackMeshModel
import Verif.Thermal.StackMeshProps
import Verif.Thermal.ProfileModel
import Verif.Thermal.ProfileProps
import Verif.Thermal.ProfileFileProps
import Verif.Design.BoundaryModel
import Verif.Design.BoundaryProps
import Verif.Design.RenderProps
import Verif.Archive.Model
import Verif.Archive.Props
import Verif.Thermal.PrismScaleModel
import Verif.Thermal.PrismScaleProps
import Verif.Thermal.DumpModel
import Verif.Thermal.DumpProps
import Verif.Thermal.BalanceProps
import Verif.Thermal.PrismBalanceProps
import Verif.Thermal.StackBalanceProps
import Verif.Thermal.ResponseProps
import Verif.Thermal.DecayProps
import Verif.Design.UserModel
import Verif.Design.UserProps
import Verif.Thermal.ConvergeProps
import Verif.Thermal.ConvergeGridProps
import Verif.Thermal.ConvergePrismProps
import Verif.Thermal.ConvergeStackProps
import Verif.Thermal.GridObjModel
import Verif.Thermal.GridObjProps
import Verif.Xfl.ImportModel
import Verif.Xfl.ImportBase
import Verif.Xfl.ImportLemmas
import Verif.Xfl.ImportProps
import Verif.Xfl.ImportEndProps
import Verif.Xfl.ImportTotalProps
import Verif.Xfl.ImportDoneProps
import Verif.Gds.DesignModel
import Verif.Gds.DesignLemmas
import Verif.Gds.DesignProps
import Verif.Gds.DesignFlatProps
import Verif.Gds.DesignExamples
import Verif.KiCad.ImportModel
import Verif.KiCad.ImportProps
import Verif.KiCad.ImportExamples
import Verif.Thermal.LayoutResponseProps
import Verif.Dmc.DesignModel
import Verif.Dmc.DesignProps
import Verif.Thermal.CourseProps
import Verif.Thermal.LayoutCourseProps
import Verif.Thermal.ScenModel
import Verif.Thermal.ScenProps
import Verif.Thermal.ScenBuildProps
import Verif.Thermal.LowerProps
import Verif.Thermal.PrismResponseProps
import Verif.Thermal.StackResponseProps
import Verif.Thermal.NetCourseProps
import Verif.Thermal.PrismCourseProps
import Verif.Thermal.StackCourseProps
import Verif.Thermal.MatModel
import Verif.Thermal.MatProps
import Verif.Thermal.LayoutPrismModel
import Verif.Thermal.LayoutPrismProps
import Verif.Geom.CutFamilyProps
import Verif.Thermal.LayoutPrismRespProps
import Verif.Thermal.NamedModel
import Verif.Thermal.NamedProps
import Verif.Thermal.SummaryModel
import Verif.Thermal.SummaryProps
import Verif.Thermal.SummaryEdgeProps
import Verif.Thermal.SummaryRaceProps
import Verif.Thermal.StepCourseProps
import Verif.Thermal.StepHeatProps
import Verif.Thermal.StepLimitProps
import Verif.Thermal.StepModelProps
import Verif.Util.FillBackProps
import Verif.Design.CacheModel
import Verif.Design.CacheProps
import Verif.Thermal.StalePowerProps
import Verif.Thermal.SketchModel
import Verif.Thermal.SketchProps
import Verif.Thermal.MidModel
import Verif.Thermal.MidProps
import Verif.Thermal.MidRealProps
import Verif.Thermal.MidRunProps
import Verif.Thermal.MidCourseProps
import Verif.Thermal.MidPulseProps
import Verif.Thermal.WireProps
import Verif.Thermal.EnvModel
import Verif.Thermal.EnvProps
import Verif.Thermal.EnvRunProps
import Verif.Design.SessionModel
import Verif.Design.SessionProps
import Verif.Gds.UnitsProps
import Verif.Gds.TextProps
import Verif.Thermal.LinSolveModel
import Verif.Thermal.LinSolveProps
import Verif.Thermal.LinCgProps
import Verif.Thermal.LinNetProps
import Verif.Ctm.LayoutPackModel
import Verif.Ctm.LayoutPackProps
import Verif.Thermal.WireHeatProps
import Verif.Thermal.WallProps
import Verif.Util.MergerFilesModel
import Verif.Util.MergerFilesProps
import Verif.Thermal.RangeModel
import Verif.Thermal.RangeProps
import Verif.Thermal.DetourProps
import Verif.KiCad.AttrProps
