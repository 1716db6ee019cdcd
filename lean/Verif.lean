import Verif.Lemmas.Argmin
import Verif.Lemmas.Double
import Verif.Lemmas.Fs
import Verif.Lemmas.Ftp
import Verif.Lemmas.FtpLive
import Verif.Lemmas.Hdf
import Verif.Lemmas.Json
import Verif.Lemmas.JsonPrefix
import Verif.Lemmas.Rounding
import Verif.Lemmas.Secure
import Verif.Lemmas.Sender
import Verif.Lemmas.SenderRace
import Verif.Lemmas.ShakeMap
import Verif.Lemmas.Text
import Verif.Model.Cities
import Verif.Model.CityCsv
import Verif.Model.CityFile
import Verif.Model.CityGrid
import Verif.Model.CityTables
import Verif.Model.Collision
import Verif.Model.ColorMap
import Verif.Model.Comcat
import Verif.Model.ComcatDoc
import Verif.Model.Compass
import Verif.Model.Container
import Verif.Model.ContainerBytes
import Verif.Model.ContainerFiles
import Verif.Model.Distance
import Verif.Model.Double
import Verif.Model.DoubleColors
import Verif.Model.DoubleMoney
import Verif.Model.DoublePlaces
import Verif.Model.EcefDouble
import Verif.Model.EdgeArea
import Verif.Model.EdgeDip
import Verif.Model.EdgeDouble
import Verif.Model.EdgeLength
import Verif.Model.EdgeRupture
import Verif.Model.EdgeStrike
import Verif.Model.Email
import Verif.Model.EventFile
import Verif.Model.EventXml
import Verif.Model.Factory
import Verif.Model.FromTrace
import Verif.Model.Fs
import Verif.Model.Ftp
import Verif.Model.Gc2
import Verif.Model.GeoBytes
import Verif.Model.Hdf
import Verif.Model.Json
import Verif.Model.JsonFloat
import Verif.Model.MapCities
import Verif.Model.MapDraw
import Verif.Model.MapWorld
import Verif.Model.Openquake
import Verif.Model.OqDouble
import Verif.Model.OqObjects
import Verif.Model.OqPoints
import Verif.Model.OqWay
import Verif.Model.Origin
import Verif.Model.Palette
import Verif.Model.PaletteFile
import Verif.Model.Pdl
import Verif.Model.Plot
import Verif.Model.PointText
import Verif.Model.PyBase
import Verif.Model.PyNumber
import Verif.Model.QuadDepth
import Verif.Model.QuadDip
import Verif.Model.QuadDistDouble
import Verif.Model.QuadLength
import Verif.Model.QuadRupture
import Verif.Model.QuadStrike
import Verif.Model.QuadWidth
import Verif.Model.RuptureArrays
import Verif.Model.RuptureDict
import Verif.Model.RuptureFile
import Verif.Model.RuptureHeap
import Verif.Model.RuptureOutput
import Verif.Model.RuptureStop
import Verif.Model.RuptureUtils
import Verif.Model.ScaleBar
import Verif.Model.Scp
import Verif.Model.ScpReuse
import Verif.Model.ScpWire
import Verif.Model.Secure
import Verif.Model.Sender
import Verif.Model.SenderLists
import Verif.Model.SenderRace
import Verif.Model.SenderState
import Verif.Model.ShakeMap
import Verif.Model.SlipDouble
import Verif.Model.Text
import Verif.Model.Time
import Verif.Model.TimeText
import Verif.Model.TimeUse
import Verif.Model.Utf8
import Verif.Model.Vector
import Verif.Model.VectorDouble
import Verif.Model.VectorOps
import Verif.Model.Version
import Verif.Model.ZoneFiles
import Verif.Props.Amounts
import Verif.Props.BoundingBox
import Verif.Props.Cities
import Verif.Props.CityBounds
import Verif.Props.CityCsv
import Verif.Props.CityFile
import Verif.Props.CityGrid
import Verif.Props.CityStop
import Verif.Props.CityTables
import Verif.Props.Collision
import Verif.Props.ColorMap
import Verif.Props.Comcat
import Verif.Props.ComcatDoc
import Verif.Props.Commify
import Verif.Props.Compass
import Verif.Props.Container
import Verif.Props.ContainerBytes
import Verif.Props.ContainerFiles
import Verif.Props.CopyRetry
import Verif.Props.CopySender
import Verif.Props.Distance
import Verif.Props.Double
import Verif.Props.DoubleColors
import Verif.Props.DoubleMoney
import Verif.Props.DoublePlaces
import Verif.Props.EcefDepth
import Verif.Props.EcefDouble
import Verif.Props.EdgeArea
import Verif.Props.EdgeArrays
import Verif.Props.EdgeDip
import Verif.Props.EdgeDistance
import Verif.Props.EdgeDouble
import Verif.Props.EdgeLength
import Verif.Props.EdgeRupture
import Verif.Props.EdgeStrike
import Verif.Props.EdgeSums
import Verif.Props.Elapsed
import Verif.Props.EmailSender
import Verif.Props.EventFile
import Verif.Props.EventXml
import Verif.Props.FromTrace
import Verif.Props.FtpLive
import Verif.Props.FtpRetry
import Verif.Props.FtpSender
import Verif.Props.Gc2
import Verif.Props.Gc2Between
import Verif.Props.Gc2Groups
import Verif.Props.GeoBytes
import Verif.Props.Groups
import Verif.Props.Historic
import Verif.Props.Json
import Verif.Props.JsonFloat
import Verif.Props.Longitudes
import Verif.Props.MapCities
import Verif.Props.MapDraw
import Verif.Props.MapWorld
import Verif.Props.NumberUse
import Verif.Props.Openquake
import Verif.Props.OqCourse
import Verif.Props.OqDouble
import Verif.Props.OqObjects
import Verif.Props.OqPoints
import Verif.Props.OqProjection
import Verif.Props.OqWay
import Verif.Props.Origin
import Verif.Props.Palette
import Verif.Props.PaletteFile
import Verif.Props.PdlArguments
import Verif.Props.PdlSender
import Verif.Props.PlaneFit
import Verif.Props.Plot
import Verif.Props.PointRupture
import Verif.Props.PointText
import Verif.Props.PyNumber
import Verif.Props.QuadDepth
import Verif.Props.QuadDip
import Verif.Props.QuadDistDouble
import Verif.Props.QuadDistOrder
import Verif.Props.QuadLength
import Verif.Props.QuadMeasures
import Verif.Props.QuadRrupDouble
import Verif.Props.QuadRupture
import Verif.Props.QuadShape
import Verif.Props.QuadSlip
import Verif.Props.QuadStrike
import Verif.Props.QuadWidth
import Verif.Props.Roman
import Verif.Props.Rounding
import Verif.Props.RuptureArrays
import Verif.Props.RuptureDict
import Verif.Props.RuptureDistance
import Verif.Props.RuptureDouble
import Verif.Props.RuptureFactory
import Verif.Props.RuptureFile
import Verif.Props.RuptureGeometry
import Verif.Props.RuptureHeap
import Verif.Props.RuptureOutput
import Verif.Props.RuptureRanges
import Verif.Props.RuptureSlip
import Verif.Props.RuptureStop
import Verif.Props.RuptureText
import Verif.Props.RuptureWrite
import Verif.Props.ScaleBar
import Verif.Props.ScpEcho
import Verif.Props.ScpGet
import Verif.Props.ScpPut
import Verif.Props.ScpQuote
import Verif.Props.ScpReuse
import Verif.Props.ScpTree
import Verif.Props.SecureRetry
import Verif.Props.SecureSender
import Verif.Props.SenderLists
import Verif.Props.SenderRace
import Verif.Props.SenderSetup
import Verif.Props.SenderState
import Verif.Props.ShakeMap
import Verif.Props.ShakeMapSlots
import Verif.Props.SlipDouble
import Verif.Props.StrikeRange
import Verif.Props.TimeText
import Verif.Props.TimeUse
import Verif.Props.Utf8
import Verif.Props.Vector
import Verif.Props.VectorDouble
import Verif.Props.VectorOps
import Verif.Props.Version
import Verif.Props.VersionAll
import Verif.Props.VersionRender
import Verif.Props.ZoneFiles
import Verif.Props.Zones
import Verif.Spec.Calendar
import Verif.Spec.CityBounds
import Verif.Spec.CityGrid
import Verif.Spec.CityStop
import Verif.Spec.CityTables
import Verif.Spec.ColorMap
import Verif.Spec.ComcatDoc
import Verif.Spec.ContainerFiles
import Verif.Spec.CopyRetry
import Verif.Spec.Course
import Verif.Spec.Delivery
import Verif.Spec.DepthAt
import Verif.Spec.Double
import Verif.Spec.EcefDouble
import Verif.Spec.EdgeArea
import Verif.Spec.EdgeDip
import Verif.Spec.EdgeDouble
import Verif.Spec.EdgeLength
import Verif.Spec.EventXml
import Verif.Spec.Files
import Verif.Spec.FtpDelivery
import Verif.Spec.FtpRetry
import Verif.Spec.Gc2
import Verif.Spec.GeoBytes
import Verif.Spec.GeoNames
import Verif.Spec.Geometry
import Verif.Spec.Grouping
import Verif.Spec.Json
import Verif.Spec.JsonFloat
import Verif.Spec.Longitude
import Verif.Spec.Mail
import Verif.Spec.MapCities
import Verif.Spec.MapWorld
import Verif.Spec.Maps
import Verif.Spec.NumberUse
import Verif.Spec.Numeral
import Verif.Spec.OqDouble
import Verif.Spec.Palette
import Verif.Spec.PaletteText
import Verif.Spec.PdlArguments
import Verif.Spec.PlaneFit
import Verif.Spec.PointText
import Verif.Spec.Polygon
import Verif.Spec.PyNumber
import Verif.Spec.QuadDip
import Verif.Spec.QuadDistDouble
import Verif.Spec.QuadLength
import Verif.Spec.QuadStrike
import Verif.Spec.QuadWidth
import Verif.Spec.Rect
import Verif.Spec.Remote
import Verif.Spec.Roman
import Verif.Spec.Rose
import Verif.Spec.Rounding
import Verif.Spec.RuptureArrays
import Verif.Spec.RuptureJson
import Verif.Spec.RuptureSurface
import Verif.Spec.RuptureText
import Verif.Spec.ScpEcho
import Verif.Spec.ScpTree
import Verif.Spec.ScpWire
import Verif.Spec.SecureRetry
import Verif.Spec.Selection
import Verif.Spec.SenderLists
import Verif.Spec.SenderRace
import Verif.Spec.Shell
import Verif.Spec.SimpleLine
import Verif.Spec.Sphere
import Verif.Spec.TimeText
import Verif.Spec.Trace
import Verif.Spec.Utf8
import Verif.Spec.VectorDouble
import Verif.Spec.Version
