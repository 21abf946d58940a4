import Verif.Model.Arrays
import Verif.Model.Attr
import Verif.Model.Base
import Verif.Model.Batch
import Verif.Model.Bodies
import Verif.Model.Cache
import Verif.Model.Cleanup
import Verif.Model.CountFiles
import Verif.Model.CountFlag
import Verif.Model.CountPlot
import Verif.Model.Crash
import Verif.Model.Crater
import Verif.Model.CraterCopy
import Verif.Model.CraterShape
import Verif.Model.CraterState
import Verif.Model.CsvRead
import Verif.Model.CsvWrite
import Verif.Model.DataSurface
import Verif.Model.Defaults
import Verif.Model.Degradation
import Verif.Model.Dem
import Verif.Model.DemFiles
import Verif.Model.DemSave
import Verif.Model.DemWindow
import Verif.Model.Describe
import Verif.Model.Diffusion
import Verif.Model.DiffusionDouble
import Verif.Model.Display
import Verif.Model.EjectaDouble
import Verif.Model.EjectaLayer
import Verif.Model.EllipseFit
import Verif.Model.Emplace
import Verif.Model.EmplacedLists
import Verif.Model.Export
import Verif.Model.FaceBinsDouble
import Verif.Model.Files
import Verif.Model.Fit
import Verif.Model.Geometry
import Verif.Model.Geotiff
import Verif.Model.GridId
import Verif.Model.HiRes
import Verif.Model.History
import Verif.Model.Impact
import Verif.Model.IntegerData
import Verif.Model.Inverse
import Verif.Model.Label
import Verif.Model.Limits
import Verif.Model.LocalIndex
import Verif.Model.LocalMesh
import Verif.Model.Location
import Verif.Model.LocationDouble
import Verif.Model.Lola
import Verif.Model.Looking
import Verif.Model.Lookup
import Verif.Model.ManyAges
import Verif.Model.Measure
import Verif.Model.MeshRounding
import Verif.Model.MeshSettings
import Verif.Model.MeshSize
import Verif.Model.MeshView
import Verif.Model.Noise
import Verif.Model.Outline
import Verif.Model.Overlap
import Verif.Model.Parallel
import Verif.Model.Place
import Verif.Model.Plot
import Verif.Model.PlotOptions
import Verif.Model.Points
import Verif.Model.Populate
import Verif.Model.Prescribed
import Verif.Model.PrescribedList
import Verif.Model.Production
import Verif.Model.Profile
import Verif.Model.ProfileCall
import Verif.Model.Projectile
import Verif.Model.Projection
import Verif.Model.Promotion
import Verif.Model.QuasiMC
import Verif.Model.Radial
import Verif.Model.Raster
import Verif.Model.ReadAll
import Verif.Model.Recompute
import Verif.Model.Region
import Verif.Model.RegionPolygon
import Verif.Model.Remesh
import Verif.Model.RimScore
import Verif.Model.Rings
import Verif.Model.RingsDouble
import Verif.Model.RngShare
import Verif.Model.Run
import Verif.Model.RunArgs
import Verif.Model.Sample
import Verif.Model.Sampling
import Verif.Model.SaveRound
import Verif.Model.Scaling
import Verif.Model.ScalingMaker
import Verif.Model.SccFile
import Verif.Model.Sequence
import Verif.Model.SequenceGroup
import Verif.Model.Settings
import Verif.Model.Sfd
import Verif.Model.SfdDouble
import Verif.Model.Shapefile
import Verif.Model.SimDir
import Verif.Model.SimReset
import Verif.Model.SliceRegion
import Verif.Model.Spectrum
import Verif.Model.Sphere
import Verif.Model.Startup
import Verif.Model.Steps
import Verif.Model.SubPixel
import Verif.Model.Superdomain
import Verif.Model.SurfaceData
import Verif.Model.SurfaceExport
import Verif.Model.SurfaceSave
import Verif.Model.Tags
import Verif.Model.Tallies
import Verif.Model.TriangleDouble
import Verif.Model.Uniform
import Verif.Model.Units
import Verif.Model.ViewKeys
import Verif.Model.VtkFiles
import Verif.Model.Wiring
import Verif.Props.Arrays
import Verif.Props.Attr
import Verif.Props.Base
import Verif.Props.Batch
import Verif.Props.Between
import Verif.Props.Bodies
import Verif.Props.Cache
import Verif.Props.Cleanup
import Verif.Props.CountFiles
import Verif.Props.CountFlag
import Verif.Props.CountPlot
import Verif.Props.Crash
import Verif.Props.Crater
import Verif.Props.CraterCopy
import Verif.Props.CraterShape
import Verif.Props.CraterState
import Verif.Props.CsvRead
import Verif.Props.CsvWrite
import Verif.Props.DataSurface
import Verif.Props.Defaults
import Verif.Props.Degradation
import Verif.Props.Dem
import Verif.Props.DemFiles
import Verif.Props.DemSave
import Verif.Props.DemWindow
import Verif.Props.Describe
import Verif.Props.Diffusion
import Verif.Props.DiffusionDouble
import Verif.Props.DiffusionTime
import Verif.Props.Display
import Verif.Props.EjectaDouble
import Verif.Props.EjectaLayer
import Verif.Props.EllipseFit
import Verif.Props.Emplace
import Verif.Props.EmplacedLists
import Verif.Props.Export
import Verif.Props.Extents
import Verif.Props.FaceBins
import Verif.Props.FaceBinsDouble
import Verif.Props.Files
import Verif.Props.Fit
import Verif.Props.FitLoop
import Verif.Props.Geometry
import Verif.Props.Geotiff
import Verif.Props.GridId
import Verif.Props.HiRes
import Verif.Props.History
import Verif.Props.Impact
import Verif.Props.Independent
import Verif.Props.IntegerData
import Verif.Props.Inverse
import Verif.Props.Joint
import Verif.Props.Label
import Verif.Props.Law
import Verif.Props.Levels
import Verif.Props.Limits
import Verif.Props.LocalIndex
import Verif.Props.LocalMesh
import Verif.Props.Location
import Verif.Props.LocationDouble
import Verif.Props.Lola
import Verif.Props.Looking
import Verif.Props.Lookup
import Verif.Props.ManyAges
import Verif.Props.Measure
import Verif.Props.Meridian
import Verif.Props.MeshRounding
import Verif.Props.MeshSettings
import Verif.Props.MeshSize
import Verif.Props.MeshView
import Verif.Props.NeukumSlope
import Verif.Props.Noise
import Verif.Props.Outline
import Verif.Props.Overlap
import Verif.Props.Parallel
import Verif.Props.Place
import Verif.Props.Plot
import Verif.Props.PlotOptions
import Verif.Props.Points
import Verif.Props.Populate
import Verif.Props.Prescribed
import Verif.Props.PrescribedList
import Verif.Props.Production
import Verif.Props.Profile
import Verif.Props.ProfileCall
import Verif.Props.Projectile
import Verif.Props.ProjectileCopy
import Verif.Props.Projection
import Verif.Props.Promotion
import Verif.Props.QuasiMC
import Verif.Props.Radial
import Verif.Props.Raster
import Verif.Props.Rays
import Verif.Props.ReadAll
import Verif.Props.Recompute
import Verif.Props.Reference
import Verif.Props.Region
import Verif.Props.RegionPolygon
import Verif.Props.RegionRadius
import Verif.Props.Remesh
import Verif.Props.Resume
import Verif.Props.RimScore
import Verif.Props.Rings
import Verif.Props.RingsDouble
import Verif.Props.RngShare
import Verif.Props.RoundTrip
import Verif.Props.Run
import Verif.Props.RunArgs
import Verif.Props.Sample
import Verif.Props.Sampling
import Verif.Props.SaveRound
import Verif.Props.Scaling
import Verif.Props.ScalingMaker
import Verif.Props.SccFile
import Verif.Props.Schedule
import Verif.Props.Sequence
import Verif.Props.SequenceApart
import Verif.Props.SequenceGroup
import Verif.Props.SequenceRange
import Verif.Props.Settings
import Verif.Props.Sfd
import Verif.Props.SfdDouble
import Verif.Props.Shapefile
import Verif.Props.SimDir
import Verif.Props.SimReset
import Verif.Props.SliceRegion
import Verif.Props.Slope
import Verif.Props.Smooth
import Verif.Props.Spectrum
import Verif.Props.Sphere
import Verif.Props.Startup
import Verif.Props.Steps
import Verif.Props.SubPixel
import Verif.Props.Superdomain
import Verif.Props.SurfaceData
import Verif.Props.SurfaceExport
import Verif.Props.SurfaceSave
import Verif.Props.Tags
import Verif.Props.Tallies
import Verif.Props.TriangleDouble
import Verif.Props.Uniform
import Verif.Props.Units
import Verif.Props.UntimedOrder
import Verif.Props.Velocity
import Verif.Props.ViewKeys
import Verif.Props.VtkFiles
import Verif.Props.Wiring
