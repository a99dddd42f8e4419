import Verif.Basic
import Verif.Params
import Verif.ParamsSpec
import Verif.ParamsProps
import Verif.GearMgr
import Verif.GearMgrSpec
import Verif.GearMgrLemmas
import Verif.GearMgrProps
import Verif.PadIndex
import Verif.PadIndexLemmas
import Verif.Num
import Verif.RectLayout
import Verif.RectSpec
import Verif.RectLemmas
import Verif.RectLemmas2
import Verif.RectSearch
import Verif.RectMonotone
import Verif.RectProps
import Verif.RectDistance
import Verif.RectDistanceProps
import Verif.RectNearest
import Verif.Disk
import Verif.DiskLemmas
import Verif.DiskDistance
import Verif.PadAngle
import Verif.PadAngleSpec
import Verif.PadAngleLemmas
import Verif.PadAngleProps
import Verif.PadAngleDistance
import Verif.PadSize
import Verif.PadSizeSpec
import Verif.PadSizeLemmas
import Verif.PadSizeProps
import Verif.PadSizeDistance
import Verif.PadSizeNearest
import Verif.Versatile
import Verif.VersatileSpec
import Verif.VersatileLemmas
import Verif.VersatileProps
import Verif.VersatileDistance
import Verif.TpcModule
import Verif.TpcModuleSpec
import Verif.TpcModuleLemmas
import Verif.TpcModuleProps
import Verif.TpcModuleExtent
import Verif.TpcModuleExtentProps
import Verif.TpcModuleSight
import Verif.TpcModuleAngles
import Verif.TpcModuleAround
import Verif.TpcModuleAroundProps
import Verif.TpcModuleDistance
import Verif.TpcParams
import Verif.TpcParamsSpec
import Verif.TpcParamsLemmas
import Verif.TpcParamsProps
import Verif.Vector3D
import Verif.Vector3DProps
import Verif.ZPlanar
import Verif.ZPlanarSpec
import Verif.ZPlanarLemmas
import Verif.ZPlanarPoint
import Verif.ZPlanarNear
import Verif.ZPlanarCross
import Verif.ZPlanarProps
import Verif.ZPlanarFloat
import Verif.ZPlanarFloatProps
import Verif.Ftd
import Verif.FtdProps
import Verif.Calo
import Verif.CaloProps
import Verif.Telescope
import Verif.TelescopeProps
import Verif.Surf
import Verif.SurfProps
import Verif.Xml
import Verif.XmlSpec
import Verif.XmlLemmas
import Verif.XmlRoundTrip
import Verif.XmlSafety
import Verif.XmlClosed
import Verif.XmlProps
import Verif.XmlNum
import Verif.XmlNumProps
import Verif.XmlUtil
import Verif.XmlParams
import Verif.XmlParamsLemmas
import Verif.XmlParamsProps
import Verif.XmlRegistry
import Verif.XmlRegistryProps
import Verif.XmlRead
import Verif.XmlSimple
import Verif.XmlSimpleProps
import Verif.XmlTracker
import Verif.XmlTrackerProps
import Verif.XmlTelescope
import Verif.XmlTelescopeProps
import Verif.XmlCalo
import Verif.XmlCaloProps
import Verif.XmlLayouts
import Verif.XmlLayoutsProps
import Verif.XmlDiskProps
import Verif.TpcModuleOk
import Verif.XmlTpc
import Verif.XmlTpcProps
import Verif.XmlMerge
import Verif.XmlMergeSpec
import Verif.XmlMergeLemmas
import Verif.XmlMergeProps
import Verif.XmlFile
import Verif.XmlFileSpec
import Verif.XmlFileLemmas
import Verif.XmlFileProps
import Verif.XmlCopy
import Verif.XmlCopyProps
import Verif.XmlMergeMain
import Verif.XmlMergeMainProps
import Verif.MaterialMap
import Verif.MaterialMapSpec
import Verif.MaterialMapLemmas
import Verif.MaterialMapProps
import Verif.MaterialMapFactory
import Verif.MaterialMapFactoryProps
import Verif.TGeoDistance
import Verif.TGeoDistanceProps
import Verif.TGeoTrace
import Verif.TGeoTraceProps
import Verif.Print
import Verif.PrintProps
import Verif.TGeoPoint
import Verif.TGeoPointProps
import Verif.Cga
import Verif.CgaProps
import Verif.PrintTableProps
import Verif.PrintTracker
import Verif.PrintTrackerProps
import Verif.PrintGeometry
import Verif.PrintGeometryProps
import Verif.PrintMgrProps
import Verif.XmlDom
import Verif.XmlDomSpec
import Verif.XmlDomLemmas
import Verif.XmlDomFocus
import Verif.XmlDomRefine
import Verif.XmlDomProps
import Verif.XmlAttr
import Verif.XmlAttrSpec
import Verif.XmlAttrLemmas
import Verif.XmlAttrProps
import Verif.XmlPlace
import Verif.XmlPlaceSpec
import Verif.XmlPlaceLemmas
import Verif.XmlPlaceParse
import Verif.XmlPlaceTree
import Verif.XmlPlaceSim
import Verif.XmlPlaceNodes
import Verif.XmlPlaceTrack
import Verif.XmlPlaceCode
import Verif.XmlPlaceProps
import Verif.XmlGrammarSpec
import Verif.XmlGrammarLemmas
import Verif.XmlGrammarTags
import Verif.XmlGrammarNodes
import Verif.XmlGrammarProps
import Verif.Gdml
import Verif.GdmlProps
import Verif.XmlStream
import Verif.XmlSaveSpec
import Verif.XmlSaveLemmas
import Verif.XmlSaveRender
import Verif.XmlSaveLoaded
import Verif.XmlSaveProps
import Verif.XmlStreamSpec
import Verif.XmlStreamLemmas
import Verif.XmlStreamSafety
import Verif.XmlStreamProps
import Verif.XmlHandle
import Verif.XmlHandleSpec
import Verif.XmlHandleProps
import Verif.PrintMaterials
import Verif.PrintMaterialsProps
import Verif.VectorND
import Verif.VectorNDProps
import Verif.Doubles
import Verif.DoublesGrid
import Verif.PadAngleDouble
import Verif.PadAngleDoubleLemmas
import Verif.PadAngleDoubleProps
import Verif.PadAngleDoubleEdge
import Verif.PadSizeDouble
import Verif.PadSizeDoubleLemmas
import Verif.PadSizeDoubleProps
import Verif.CaloDouble
import Verif.CaloDoubleProps
import Verif.TpcModuleDouble
import Verif.TpcModuleDoubleLemmas
import Verif.TpcModuleDoubleNear
import Verif.TpcModuleDoubleProps
import Verif.RectDouble
import Verif.RectDoubleSpec
import Verif.RectDoubleLemmas
import Verif.RectDoubleSearch
import Verif.RectDoubleWidth
import Verif.RectDoubleSafe
import Verif.RectDoubleProps
import Verif.RectDistanceDouble
import Verif.DiskDistanceDouble
import Verif.SurfDouble
import Verif.TGeoDistanceDouble
import Verif.TGeoDistanceDoubleProps
import Verif.VersatileDouble
import Verif.VersatileDoubleSpec
import Verif.VersatileDoubleLemmas
import Verif.VersatileDoubleRow
import Verif.VersatileDoubleSearch
import Verif.VersatileDoubleProps
import Verif.TpcDouble
import Verif.TpcDoubleProps
import Verif.PadAngleDoubleTurns
import Verif.TpcDiskDouble
import Verif.TpcDiskDoubleProps
import Verif.TpcDiskDoubleFalse
import Verif.PadAngleDoubleBeyond
import Verif.TpcDiskDoubleFar
import Verif.TpcSizeDouble
import Verif.TpcSizeDoubleProps
import Verif.TpcAreaDouble
import Verif.TpcAreaDoubleProps
import Verif.TpcAreaDiskDouble
import Verif.TpcAreaDiskDoubleProps
import Verif.TpcAreaDiskDoubleFar
import Verif.TpcAreaAnyDoubleProps
import Verif.TpcVersatileDouble
import Verif.TpcVersatileDoubleProps
import Verif.TpcAreaVersatileDoubleProps
import Verif.TpcPolarDoubleFar
import Verif.TpcMixedDoubleProps
import Verif.TpcTurnDoubleFar
