# What is modelled

Generated from the citations in `lean/Verif/Model`. For every Python file: the functions, the number of
lines of the body (without the documentation string) and how many of them are cited, and the definitions
that cite them. Functions without a definition are not modelled.
Lines of function bodies: 5039, cited: 4841. `impactutils/_version.py` (generated by versioneer) is left out.

## impactutils/colors/cpalette.py

| function | lines | body | cited | definitions |
|---|---|---|---|---|
| `ColorPalette.__init__` | 92-173 | 41 | 41 | `ColorMap.acceptable`, `ColorMap.between`, `ColorMap.entry`, `ColorMap.badColor`, `DoubleColors.position`, `DoubleColors.roundKnot`, `DoubleColors.numColors`, `DoubleColors.palette`, `DoubleColors.place`, `DoubleColors.blend`, `DoubleColors.tableEntry`, `Palette.Segments`, `Palette.Knot`, `Palette.Palette`, `Palette.scale255`, `Palette.dummyB`, `Palette.dummyE`, `Palette.lengthsRejected`, `Palette.buildKnots`, `Palette.numColors`, `Palette.construct` |
| `ColorPalette.fromPreset` | 176-198 | 13 | 13 | `DoubleColors.presetPalette`, `Palette.fromPreset` |
| `ColorPalette.getPresets` | 201-208 | 1 | 1 | `ColorMap.getPresets` |
| `ColorPalette.fromFile` | 211-263 | 23 | 23 | `PaletteFile.Settings`, `PaletteFile.startSettings`, `PaletteFile.afterColon`, `PaletteFile.readInts`, `PaletteFile.settingLine`, `PaletteFile.settingLines`, `PaletteFile.wordRows`, `PaletteFile.columnOf`, `PaletteFile.fromFile`, `PyNumber.pyFloat`, `PyNumber.pyInt` |
| `ColorPalette.fromColorMap` | 266-300 | 16 | 16 | `Palette.fromColorMap` |
| `ColorPalette.vmin` | 303-309 | 1 | 0 | `Palette.fromColorMap` |
| `ColorPalette.vmin` | 312-318 | 1 | 1 | `ColorMap.setVmin` |
| `ColorPalette.vmax` | 321-327 | 1 | 0 | not modelled |
| `ColorPalette.vmax` | 330-336 | 1 | 1 | `ColorMap.setVmax` |
| `ColorPalette.cmap` | 339-347 | 1 | 0 | not modelled |
| `ColorPalette.getDataColor` | 349-387 | 20 | 20 | `ColorMap.logOf`, `ColorMap.cell`, `ColorMap.lookupColor`, `ColorMap.dataColor`, `DoubleColors.position`, `DoubleColors.tableIndex`, `DoubleColors.formatted`, `DoubleColors.dataColor`, `Palette.normValue`, `Palette.getDataColor` |

## impactutils/comcat/query.py

| function | lines | body | cited | definitions |
|---|---|---|---|---|
| `_get_url_data` | 18-34 | 16 | 16 | `Comcat.sleep`, `Comcat.secondRequest`, `Comcat.retry`, `Comcat.getUrlData` |
| `GeoServe.__init__` | 42-64 | 8 | 8 | `Comcat.regurl`, `Comcat.placeurl`, `ComcatDoc.Step`, `ComcatDoc.served` |
| `GeoServe.getPlaces` | 66-87 | 1 | 1 | `ComcatDoc.geoserve`, `ComcatDoc.Step` |
| `GeoServe.getRegions` | 89-97 | 2 | 2 | `Comcat.getRegions`, `ComcatDoc.hasGet`, `ComcatDoc.geoserve`, `ComcatDoc.Step` |
| `GeoServe.getAuthoritative` | 99-116 | 9 | 9 | `Comcat.getAuthoritative`, `ComcatDoc.authoritative`, `ComcatDoc.geoserve`, `ComcatDoc.Step` |
| `GeoServe._getJSONContent` | 118-121 | 3 | 3 | `Comcat.getJSONContent`, `ComcatDoc.load`, `ComcatDoc.Step` |
| `ComCatInfo.__init__` | 125-135 | 10 | 10 | `Comcat.comCatInfo`, `ComcatDoc.load`, `ComcatDoc.Step`, `ComcatDoc.opened` |
| `ComCatInfo.getAssociatedIds` | 137-147 | 4 | 4 | `Comcat.getAssociatedIds`, `ComcatDoc.idFields`, `ComcatDoc.ids`, `ComcatDoc.returnPair`, `ComcatDoc.comcat`, `ComcatDoc.Step` |
| `ComCatInfo.getAssociatedSources` | 149-179 | 14 | 14 | `Comcat.slengths`, `Comcat.pickSource`, `Comcat.getAssociatedSources`, `ComcatDoc.sources`, `ComcatDoc.returnPair`, `ComcatDoc.comcat`, `ComcatDoc.Step` |
| `ComCatInfo.getEventParams` | 181-205 | 11 | 11 | `Comcat.eventSeconds`, `ComcatDoc.seconds`, `ComcatDoc.toTime`, `ComcatDoc.params`, `ComcatDoc.returnDict`, `ComcatDoc.comcat`, `ComcatDoc.Step`, `Double.seconds` |
| `ComCatInfo.getLocation` | 207-214 | 2 | 2 | `ComcatDoc.comcat`, `ComcatDoc.Step` |
| `ComCatInfo.getTsunami` | 216-223 | 2 | 2 | `ComcatDoc.comcat`, `ComcatDoc.Step` |
| `ComCatInfo.getShakeGrid` | 225-247 | 11 | 11 | `Comcat.getShakeGrid`, `ComcatDoc.gridUrl`, `ComcatDoc.comcat`, `ComcatDoc.Step` |
| `ComCatInfo.getURL` | 249-256 | 2 | 2 | `ComcatDoc.comcat`, `ComcatDoc.Step` |

## impactutils/extern/openquake/geodetic.py

| function | lines | body | cited | definitions |
|---|---|---|---|---|
| `geodetic_distance` | 38-58 | 7 | 7 | `Openquake.geodeticDistance`, `OqDouble.haversine`, `OqDouble.geodeticDistance` |
| `azimuth` | 61-81 | 8 | 8 | `Openquake.azimuth`, `OqDouble.azimuth` |
| `distance` | 84-100 | 3 | 3 | `Openquake.distance`, `OqDouble.depthDistance` |
| `_prepare_coords` | 103-115 | 7 | 5 | `OqDouble.npRadians` |

## impactutils/extern/openquake/point.py

| function | lines | body | cited | definitions |
|---|---|---|---|---|
| `Point.__init__` | 52-69 | 13 | 13 | `Factory.pointOk`, `Openquake.mkPoint` |
| `Point.x` | 72-74 | 1 | 0 | not modelled |
| `Point.y` | 77-79 | 1 | 0 | not modelled |
| `Point.z` | 82-84 | 1 | 0 | not modelled |
| `Point.wkt2d` | 87-92 | 1 | 1 | `PointText.wkt2d` |
| `Point.point_at` | 94-120 | 3 | 3 | `OqPoints.Pt.pointAt` |
| `Point.azimuth` | 122-137 | 2 | 0 | not modelled |
| `Point.distance` | 139-158 | 2 | 2 | `Openquake.Pt.dist` |
| `Point.distance_to_mesh` | 160-186 | 10 | 10 | `OqPoints.Mesh.points`, `OqPoints.Pt.distanceToMesh` |
| `Point.__str__` | 188-195 | 1 | 1 | `PointText.fixedFloat`, `PointText.pointText` |
| `Point.__repr__` | 197-202 | 1 | 1 | `PointText.pointText` |
| `Point.__eq__` | 204-219 | 3 | 3 | `Openquake.Pt.Same` |
| `Point.__ne__` | 221-222 | 1 | 0 | not modelled |
| `Point.on_surface` | 224-231 | 1 | 1 | `OqWay.Pt.onSurface` |
| `Point.equally_spaced_points` | 233-256 | 6 | 6 | `OqWay.roundedDistance`, `OqWay.intervalsBetween`, `OqWay.Pt.equallySpacedPoints` |
| `Point.to_polygon` | 258-280 | 7 | 0 | not modelled |
| `Point.closer_than` | 282-302 | 4 | 4 | `OqPoints.Mesh.points`, `OqPoints.Pt.closerThan` |
| `Point.from_vector` | 305-315 | 1 | 1 | `OqWay.fromVector` |

## impactutils/extern/openquake/utils.py

| function | lines | body | cited | definitions |
|---|---|---|---|---|
| `GeographicObjects.__init__` | 49-63 | 13 | 13 | `OqObjects.closestTree` |
| `GeographicObjects.get_closest` | 65-82 | 9 | 9 | `OqObjects.closestTree`, `OqObjects.closestScan` |
| `clean_points` | 85-97 | 7 | 7 | `Openquake.cleanLoop`, `Openquake.cleanPoints` |
| `line_intersects_itself` | 100-136 | 15 | 15 | `OqObjects.lineIntersectsItself` |
| `get_longitudinal_extent` | 139-150 | 1 | 1 | `Openquake.longitudinalExtent` |
| `get_spherical_bounding_box` | 153-184 | 15 | 15 | `Openquake.boundingLons` |
| `OrthographicProjection.from_lons_lats` | 197-198 | 1 | 1 | `Openquake.Proj`, `OqObjects.projOf` |
| `OrthographicProjection.__init__` | 200-209 | 9 | 9 | `FromTrace.projOf`, `Openquake.Proj`, `OqObjects.projOf` |
| `OrthographicProjection.__call__` | 211-246 | 35 | 35 | `Openquake.Proj.forward`, `Openquake.wrapLon`, `Openquake.Proj.reverse` |
| `get_orthographic_projection` | 249-289 | 1 | 0 | not modelled |
| `get_middle_point` | 292-306 | 5 | 5 | `OqPoints.middlePoint` |
| `spherical_to_cartesian` | 309-341 | 13 | 13 | `Openquake.sphericalToCartesian` |
| `cartesian_to_spherical` | 344-365 | 9 | 9 | `Openquake.cartesianToSpherical` |
| `triangle_area` | 368-388 | 5 | 5 | `Openquake.triangleArea` |
| `normalized` | 391-404 | 3 | 3 | `Openquake.normalized` |
| `point_to_polygon_distance` | 407-433 | 11 | 11 | `OqObjects.pointToPolygonDistance` |
| `cross_idl` | 436-460 | 1 | 1 | `Openquake.crossIdl` |
| `plane_fit` | 463-480 | 7 | 7 | `OqPoints.scatter`, `OqPoints.planeFit` |
| `fix_lons_idl` | 483-494 | 6 | 6 | `Openquake.fixLonsIdl` |
| `fix_bounding_box_idl` | 497-515 | 12 | 12 | `Openquake.fixBoxIdl` |

## impactutils/extern/scp/scp.py

| function | lines | body | cited | definitions |
|---|---|---|---|---|
| `_sh_quote` | 20-31 | 5 | 5 | `Scp.shQuote` |
| `asbytes` | 36-45 | 4 | 4 | `Utf8.asbytes` |
| `asunicode` | 48-57 | 4 | 4 | `Utf8.asunicode` |
| `asunicode_win` | 67-74 | 4 | 0 | not modelled |
| `SCPClient.__init__` | 92-117 | 11 | 11 | `ScpReuse.State`, `ScpReuse.new` |
| `SCPClient.__enter__` | 119-121 | 2 | 2 | `ScpReuse.enter` |
| `SCPClient.__exit__` | 123-124 | 1 | 1 | `ScpReuse.exit` |
| `SCPClient.put` | 126-157 | 15 | 15 | `Scp.putCommand`, `ScpReuse.putS`, `ScpWire.put`, `ScpWire.useSession`, `Utf8.putS` |
| `SCPClient.get` | 159-197 | 25 | 25 | `Scp.getCommand`, `ScpReuse.getS`, `ScpWire.useSession`, `ScpWire.get` |
| `SCPClient._open` | 199-206 | 3 | 3 | `ScpReuse.openS`, `ScpWire.openSession` |
| `SCPClient.close` | 208-214 | 3 | 3 | `ScpReuse.closeS`, `ScpWire.closeSession` |
| `SCPClient._read_stats` | 216-227 | 8 | 6 | `Scp.sendFiles`, `ScpWire.modeText` |
| `SCPClient._send_files` | 229-260 | 31 | 31 | `Scp.wireName`, `Scp.sendFiles`, `ScpWire.sendData`, `ScpWire.sendFile`, `ScpWire.sendFiles`, `Utf8.sendNamed`, `Utf8.sendFilesS` |
| `SCPClient._chdir` | 262-279 | 8 | 8 | `Scp.pops`, `Scp.chdir`, `ScpWire.chdirActs` |
| `SCPClient._send_recursive` | 281-294 | 13 | 13 | `Scp.sendWalk`, `Scp.sendRecursive`, `ScpWire.walkActs`, `ScpWire.sendTree`, `ScpWire.sendRecursive`, `Utf8.walkActsS`, `Utf8.sendTreeS`, `Utf8.sendRecursiveS` |
| `SCPClient._send_pushd` | 296-304 | 8 | 8 | `ScpWire.sendPushd` |
| `SCPClient._send_popd` | 306-309 | 3 | 3 | `ScpWire.sendPopd` |
| `SCPClient._send_time` | 311-316 | 5 | 5 | `Scp.wireName`, `ScpWire.sendTime` |
| `SCPClient._recv_confirm` | 318-336 | 16 | 16 | `Scp.pushed`, `ScpWire.recvConfirm` |
| `SCPClient._recv_all` | 338-358 | 18 | 18 | `Scp.written`, `ScpReuse.recvAllS`, `ScpWire.recvAll` |
| `SCPClient._set_time` | 360-369 | 8 | 8 | `ScpWire.setTime` |
| `SCPClient._recv_file` | 371-432 | 57 | 57 | `Scp.target`, `Scp.receive`, `ScpReuse.recvDataS`, `ScpReuse.recvFileS`, `ScpWire.recvData`, `ScpWire.place`, `ScpWire.recvFile`, `Utf8.recvPath` |
| `SCPClient._recv_pushd` | 435-463 | 28 | 28 | `Scp.target`, `Scp.receive`, `ScpWire.place`, `ScpWire.recvPushd`, `Utf8.recvPath` |
| `SCPClient._recv_popd` | 465-466 | 1 | 1 | `Scp.receive`, `ScpWire.recvPopd` |
| `SCPClient._set_dirtimes` | 468-473 | 5 | 5 | `ScpWire.setDirtimes` |

## impactutils/io/cmd.py

| function | lines | body | cited | definitions |
|---|---|---|---|---|
| `get_command_output` | 6-28 | 12 | 6 | `Pdl.send` |

## impactutils/io/container.py

| function | lines | body | cited | definitions |
|---|---|---|---|---|
| `HDFContainer.__init__` | 37-49 | 6 | 0 | not modelled |
| `HDFContainer.create` | 52-63 | 2 | 2 | `Container.run`, `ContainerFiles.wcreate` |
| `HDFContainer.load` | 66-78 | 2 | 2 | `ContainerFiles.wload` |
| `HDFContainer.close` | 80-84 | 1 | 1 | `ContainerFiles.wclose` |
| `HDFContainer.getFileName` | 86-93 | 1 | 1 | `ContainerFiles.wname` |
| `HDFContainer.getDictionary` | 98-115 | 8 | 8 | `Container.get`, `ContainerBytes.dec?`, `Json.codec`, `JsonFloat.readFloat` |
| `HDFContainer.setDictionary` | 117-143 | 8 | 8 | `Container.withGroup`, `Container.set`, `ContainerBytes.enc`, `Json.codec`, `JsonFloat.floatText` |
| `HDFContainer.dropDictionary` | 145-158 | 6 | 6 | `Container.drop` |
| `HDFContainer.getDictionaries` | 160-170 | 4 | 4 | `Container.list` |
| `HDFContainer.setList` | 175-201 | 8 | 8 | `Container.set`, `ContainerBytes.enc`, `Json.codec`, `JsonFloat.floatText` |
| `HDFContainer.getList` | 203-219 | 8 | 8 | `Container.get`, `ContainerBytes.dec?`, `Json.codec`, `JsonFloat.readFloat` |
| `HDFContainer.getLists` | 221-231 | 4 | 4 | `Container.list` |
| `HDFContainer.dropList` | 233-245 | 5 | 5 | `Container.drop` |
| `HDFContainer.setArray` | 251-289 | 15 | 15 | `Container.set` |
| `HDFContainer.getArray` | 291-311 | 10 | 10 | `Container.get` |
| `HDFContainer.getArrays` | 313-323 | 4 | 4 | `Container.list` |
| `HDFContainer.dropArray` | 325-337 | 5 | 5 | `Container.drop` |
| `HDFContainer.setString` | 343-366 | 8 | 8 | `Container.set`, `ContainerBytes.enc`, `ContainerBytes.setStringLinked` |
| `HDFContainer.getString` | 368-384 | 7 | 7 | `Container.get`, `ContainerBytes.dec?` |
| `HDFContainer.getStrings` | 386-396 | 4 | 4 | `Container.list` |
| `HDFContainer.dropString` | 398-410 | 5 | 5 | `Container.drop` |
| `HDFContainer.setDataFrame` | 415-440 | 12 | 12 | `Container.set` |
| `HDFContainer.getDataFrame` | 442-466 | 9 | 9 | `Container.get` |
| `HDFContainer.getDataFrames` | 468-478 | 4 | 4 | `Container.list` |
| `HDFContainer.dropDataFrame` | 480-493 | 6 | 6 | `Container.drop` |

## impactutils/io/smcontainers.py

| function | lines | body | cited | definitions |
|---|---|---|---|---|
| `HDFContainerBase.__init__` | 11-18 | 1 | 0 | not modelled |
| `HDFContainerBase.create` | 21-32 | 2 | 2 | `ContainerFiles.wcreate` |
| `HDFContainerBase.load` | 35-46 | 2 | 2 | `ContainerFiles.wload` |
| `HDFContainerBase.close` | 48-52 | 1 | 1 | `ContainerFiles.wclose` |
| `HDFContainerBase.getFileName` | 54-61 | 1 | 1 | `ContainerFiles.wname` |
| `HDFContainerBase._makeGroup` | 63-73 | 10 | 10 | `ShakeMap.makeStep`, `ShakeMap.makeSteps`, `ShakeMap.makeGroup` |
| `HDFContainerBase._getGroup` | 75-83 | 8 | 8 | `ShakeMap.getSteps`, `ShakeMap.getGroup` |
| `HDFContainerBase._getGroupPaths` | 85-99 | 14 | 14 | `ShakeMap.entryPaths`, `ShakeMap.groupPaths` |
| `HDFContainerBase.getDictionary` | 104-122 | 7 | 7 | `ShakeMap.base`, `ShakeMap.getData` |
| `HDFContainerBase.setDictionary` | 124-143 | 4 | 4 | `ShakeMap.base`, `ShakeMap.setData` |
| `HDFContainerBase.dropDictionary` | 145-162 | 6 | 6 | `ShakeMap.dropData` |
| `HDFContainerBase.getDictionaries` | 164-173 | 3 | 3 | `ShakeMap.listData` |
| `HDFContainerBase.setArray` | 179-213 | 14 | 14 | `ShakeMap.base`, `ShakeMap.setData` |
| `HDFContainerBase.getArray` | 215-236 | 9 | 9 | `ShakeMap.base`, `ShakeMap.getData` |
| `HDFContainerBase.getArrays` | 238-247 | 3 | 3 | `ShakeMap.listData` |
| `HDFContainerBase.dropArray` | 249-260 | 2 | 2 | `ShakeMap.dropData` |
| `HDFContainerBase.setString` | 266-284 | 4 | 4 | `ShakeMap.base`, `ShakeMap.setData` |
| `HDFContainerBase.getString` | 286-303 | 6 | 6 | `ShakeMap.base`, `ShakeMap.getData` |
| `HDFContainerBase.getStrings` | 305-314 | 3 | 3 | `ShakeMap.listData` |
| `HDFContainerBase.dropString` | 316-331 | 4 | 4 | `ShakeMap.dropData` |
| `ShakeMapContainerBase.setConfig` | 339-349 | 3 | 3 | `ShakeMap.dropIfListed`, `ShakeMap.setSlot` |
| `ShakeMapContainerBase.getConfig` | 351-363 | 3 | 3 | `ShakeMap.getSlot` |
| `ShakeMapContainerBase.setRuptureDict` | 365-380 | 6 | 6 | `ShakeMap.dropIfListed`, `ShakeMap.setRuptureDict` |
| `ShakeMapContainerBase.getRuptureDict` | 382-395 | 3 | 3 | `ShakeMap.getSlot` |
| `ShakeMapContainerBase.setStationDict` | 397-411 | 6 | 6 | `ShakeMap.dropIfListed`, `ShakeMap.setStationDict` |
| `ShakeMapContainerBase.getStationDict` | 413-425 | 3 | 3 | `ShakeMap.getSlot` |
| `ShakeMapContainerBase.setVersionHistory` | 427-437 | 4 | 4 | `ShakeMap.dropIfListed`, `ShakeMap.setSlot` |
| `ShakeMapContainerBase.getVersionHistory` | 439-452 | 3 | 3 | `ShakeMap.getVersionHistory` |
| `ShakeMapOutputContainer.setDataType` | 468-496 | 15 | 15 | `ShakeMap.DType`, `ShakeMap.typeSlot`, `ShakeMap.setDataType` |
| `ShakeMapOutputContainer.getDataType` | 498-511 | 4 | 4 | `ShakeMap.getDataType` |
| `ShakeMapOutputContainer.setMetadata` | 513-525 | 4 | 4 | `ShakeMap.dropIfListed`, `ShakeMap.setSlot` |
| `ShakeMapOutputContainer.getMetadata` | 527-535 | 3 | 3 | `ShakeMap.getMetadata` |
| `ShakeMapOutputContainer.setIMTGrids` | 537-567 | 7 | 7 | `ShakeMap.imtGroup`, `ShakeMap.setIMTGrids` |
| `ShakeMapOutputContainer.getIMTGrids` | 569-606 | 14 | 14 | `ShakeMap.getIMTGrids` |
| `ShakeMapOutputContainer.setIMTArrays` | 608-663 | 17 | 17 | `ShakeMap.imtGroup`, `ShakeMap.setIMTArrays` |
| `ShakeMapOutputContainer.getIMTArrays` | 665-711 | 23 | 23 | `ShakeMap.getIMTArrays` |
| `ShakeMapOutputContainer.getIMTs` | 713-741 | 16 | 16 | `ShakeMap.getIMTs`, `ShakeMap.getAllIMTs` |
| `ShakeMapOutputContainer.getComponents` | 743-764 | 11 | 10 | `ShakeMap.getComponents`, `ShakeMap.getComponentsOf` |
| `ShakeMapOutputContainer.dropIMT` | 766-780 | 7 | 7 | `ShakeMap.dropIMT` |

## impactutils/mapping/city.py

| function | lines | body | cited | definitions |
|---|---|---|---|---|
| `_fetchGeoNames` | 19-34 | 9 | 0 | not modelled |
| `Cities.__init__` | 43-69 | 3 | 3 | `Cities.City`, `Cities.Table`, `Cities.mk`, `CityCsv.cities`, `CityTables.construct`, `CityTables.step`, `MapCities.World.new`, `MapCities.World.construct`, `MapCities.step` |
| `Cities.__len__` | 72-78 | 1 | 1 | `MapCities.step` |
| `Cities.__repr__` | 80-87 | 1 | 1 | `MapCities.step` |
| `Cities.fromDefault` | 90-101 | 3 | 3 | `MapCities.step` |
| `Cities.fromGeoNames` | 104-152 | 36 | 36 | `CityFile.Place`, `CityFile.field`, `CityFile.cityOfLine`, `CityFile.citiesOfLines`, `CityFile.fromGeoNames`, `CityFile.fromDownload`, `GeoBytes.openText`, `GeoBytes.fromGeoFile`, `MapCities.step`, `PyNumber.blank`, `PyNumber.unders`, `PyNumber.pyFloat`, `PyNumber.pyInt` |
| `Cities.fromCSV` | 155-166 | 2 | 2 | `CityCsv.fromCSV`, `MapCities.step` |
| `Cities.len` | 168-174 | 1 | 1 | `CityCsv.save`, `MapCities.step` |
| `Cities.save` | 176-185 | 1 | 1 | `CityCsv.save`, `CityCsv.sortByColumns`, `MapCities.step` |
| `Cities.sortByColumns` | 187-210 | 10 | 10 | `CityCsv.sortByColumns`, `MapCities.step` |
| `Cities.getColumns` | 212-218 | 1 | 1 | `CityCsv.Frame.columns`, `MapCities.step` |
| `Cities.limitByBounds` | 220-234 | 5 | 5 | `Cities.limitByBounds`, `CityTables.limitByBounds`, `CityTables.limited`, `CityTables.step`, `MapCities.step` |
| `Cities.limitByRadius` | 236-255 | 8 | 8 | `Cities.limitByRadius`, `CityTables.limitByRadius`, `CityTables.limited`, `CityTables.step`, `MapCities.step` |
| `Cities.limitByPopulation` | 257-279 | 9 | 9 | `Cities.limitByPopulation`, `CityTables.limitByPopulation`, `CityTables.limited`, `CityTables.step`, `MapCities.step` |
| `Cities.limitByGrid` | 281-330 | 31 | 31 | `Cities.sliceTo`, `Cities.colMin`, `Cities.colMax`, `Cities.gridCell`, `Cities.limitByGrid`, `CityGrid.cellWidth`, `CityGrid.cellMin`, `CityGrid.cellMax`, `CityGrid.gridCell`, `CityGrid.limitByGrid`, `CityTables.limited`, `CityTables.step`, `MapCities.step` |
| `Cities.limitByName` | 332-343 | 2 | 2 | `CityFile.limitByName`, `CityTables.limitByName`, `CityTables.limited`, `CityTables.step`, `MapCities.step` |
| `Cities.getDataFrame` | 345-351 | 1 | 1 | `CityTables.step` |
| `Cities.getBounds` | 353-364 | 5 | 5 | `Cities.getBounds`, `CityTables.step` |
| `Cities.getCities` | 366-375 | 4 | 4 | `CityFile.getCities`, `CityTables.step` |
| `Cities.project` | 377-386 | 4 | 4 | `CityCsv.project`, `CityTables.projected`, `CityTables.step` |

## impactutils/mapping/compass.py

| function | lines | body | cited | definitions |
|---|---|---|---|---|
| `get_compass_dir` | 27-45 | 4 | 4 | `Compass.compassDir` |
| `get_compass_dir_azimuth` | 48-86 | 27 | 27 | `Compass.angles`, `Compass.table`, `Compass.compassDirAzimuth`, `DoublePlaces.compassDirAzimuth` |

## impactutils/mapping/mapcity.py

| function | lines | body | cited | definitions |
|---|---|---|---|---|
| `MapCities.__init__` | 15-50 | 10 | 10 | `MapCities.sorted`, `MapCities.World.new`, `MapCities.World.construct`, `MapCities.step` |
| `MapCities.limitByMapCollision` | 52-60 | 1 | 1 | `MapCities.step` |
| `MapCities.getFontList` | 62-67 | 1 | 1 | `MapCities.step` |

## impactutils/mapping/mercatormap.py

| function | lines | body | cited | definitions |
|---|---|---|---|---|
| `MercatorMap.__init__` | 19-112 | 28 | 28 | `MapDraw.newMap`, `MapDraw.centralLongitude`, `MapWorld.Bounds`, `MapWorld.MapObj`, `MapWorld.World.newAxes`, `MapWorld.newMap`, `MapWorld.attributes`, `MapWorld.fontList` |
| `MercatorMap.figure` | 115-121 | 1 | 0 | not modelled |
| `MercatorMap.axes` | 124-130 | 1 | 0 | not modelled |
| `MercatorMap.proj` | 133-141 | 1 | 0 | not modelled |
| `MercatorMap.geoproj` | 144-152 | 1 | 0 | not modelled |
| `MercatorMap.getFigureClone` | 154-164 | 1 | 0 | not modelled |
| `MercatorMap.getAxesClone` | 166-176 | 1 | 1 | `MapWorld.axesClone` |
| `MercatorMap.getFonts` | 178-184 | 1 | 1 | `MapWorld.fontList` |
| `MercatorMap.drawCities` | 186-227 | 12 | 12 | `MapDraw.drawRows`, `MapDraw.drawCities`, `MapWorld.draw` |
| `MercatorMap.limitByMapCollision` | 229-289 | 35 | 35 | `Collision.clear`, `Collision.keepLoop`, `Collision.keepNonOverlapping`, `Collision.limitByMapCollision` |
| `MercatorMap.getCityBoundingBoxes` | 291-337 | 23 | 23 | `Collision.offMap`, `Collision.boundingBoxes` |
| `MercatorMap.getCityEdges` | 339-364 | 11 | 11 | `Collision.cityEdges`, `MapDraw.labelBox`, `MapWorld.trial` |
| `MercatorMap.renderRow` | 366-411 | 26 | 26 | `MapDraw.labelBox` |

## impactutils/mapping/scalebar.py

| function | lines | body | cited | definitions |
|---|---|---|---|---|
| `draw_scale` | 76-317 | 131 | 131 | `ScaleBar.Division`, `ScaleBar.defaultLength`, `ScaleBar.barLeftAxes`, `ScaleBar.division`, `ScaleBar.tick`, `ScaleBar.draw`, `ScaleBar.badDivisions`, `ScaleBar.drawScale` |

## impactutils/rupture/base.py

| function | lines | body | cited | definitions |
|---|---|---|---|---|
| `Rupture.writeGeoJson` | 41-49 | 2 | 2 | `RuptureHeap.writes`, `RuptureOutput.stream`, `RuptureOutput.writeGeoJson`, `RuptureStop.stoppedAt` |
| `Rupture.getLength` | 52-57 | 1 | 0 | not modelled |
| `Rupture.getWidth` | 60-65 | 1 | 0 | not modelled |
| `Rupture.getArea` | 68-73 | 1 | 0 | not modelled |
| `Rupture.getStrike` | 76-88 | 1 | 0 | not modelled |
| `Rupture.getDip` | 91-92 | 1 | 0 | not modelled |
| `Rupture.getDepthToTop` | 95-101 | 1 | 0 | not modelled |
| `Rupture.getQuadrilaterals` | 104-109 | 1 | 0 | not modelled |
| `Rupture.getReference` | 111-117 | 1 | 0 | not modelled |
| `Rupture.getOrigin` | 119-125 | 1 | 1 | `RuptureHeap.originOf` |
| `Rupture.lats` | 128-129 | 1 | 0 | not modelled |
| `Rupture.lons` | 132-133 | 1 | 0 | not modelled |
| `Rupture.depths` | 136-137 | 1 | 1 | `RuptureDict.context` |
| `Rupture.getRuptureContext` | 139-175 | 17 | 17 | `Distance.contextRake`, `RuptureDict.context` |
| `Rupture.computeRhyp` | 177-195 | 6 | 6 | `Distance.computeRhyp` |
| `Rupture.computeRepi` | 197-215 | 6 | 6 | `Distance.computeRepi` |
| `Rupture.computeRjb` | 218-231 | 1 | 0 | not modelled |
| `Rupture.computeRrup` | 234-247 | 1 | 0 | not modelled |
| `Rupture.computeGC2` | 250-264 | 1 | 0 | not modelled |
| `Rupture.plot3d` | 266-270 | 1 | 0 | not modelled |
| `Rupture.map` | 272-276 | 1 | 0 | not modelled |

## impactutils/rupture/distance.py

| function | lines | body | cited | definitions |
|---|---|---|---|---|
| `Distance.__init__` | 31-51 | 3 | 3 | `Distance.distanceContext` |
| `Distance.getDistanceContext` | 53-59 | 1 | 1 | `Distance.distanceContext` |
| `Distance._calcDistanceContext` | 61-105 | 20 | 20 | `Distance.always`, `Distance.requires`, `Distance.fill`, `Distance.distanceContext` |
| `get_distance_measures` | 108-119 | 2 | 2 | `Distance.distanceMeasures` |
| `get_distance` | 122-220 | 28 | 28 | `Distance.gc2Distances`, `Distance.addOne`, `Distance.addTwo`, `Distance.addGc2`, `Distance.measures`, `Distance.getDistance`, `Distance.defaultDx` |

## impactutils/rupture/edge_rupture.py

| function | lines | body | cited | definitions |
|---|---|---|---|---|
| `EdgeRupture.__init__` | 29-104 | 55 | 55 | `EdgeRupture.addPolygon`, `EdgeRupture.ofPolygons`, `RuptureDict.stamp`, `RuptureDict.addOrigin`, `RuptureDict.edgeRup`, `RuptureHeap.Obj`, `RuptureHeap.mkEdge`, `TimeUse.rupFormat` |
| `EdgeRupture.fromArrays` | 107-181 | 47 | 39 | `EdgeRupture.fromArrays`, `RuptureOutput.docOf` |
| `EdgeRupture.getLength` | 183-206 | 16 | 16 | `EdgeLength.surfaceStep`, `EdgeLength.edgeLength`, `EdgeRupture.segQuads`, `EdgeRupture.getLength` |
| `EdgeRupture.getWidth` | 208-218 | 3 | 3 | `EdgeLength.edgeWidth`, `EdgeRupture.getWidth` |
| `EdgeRupture.getArea` | 220-274 | 45 | 45 | `EdgeArea.heronArea`, `EdgeArea.sideLength`, `EdgeArea.pairArea`, `EdgeArea.edgeArea`, `EdgeRupture.segQuads`, `EdgeRupture.heron`, `EdgeRupture.area1`, `EdgeRupture.area2`, `EdgeRupture.getArea` |
| `EdgeRupture.getStrike` | 276-284 | 1 | 1 | `EdgeStrike.edgeStrike` |
| `EdgeRupture.getDip` | 286-294 | 1 | 1 | `EdgeDip.edgeDip` |
| `EdgeRupture.lats` | 297-317 | 11 | 11 | `EdgeRupture.outlines`, `Plot.coords`, `RuptureArrays.outlineArray` |
| `EdgeRupture.lons` | 320-340 | 11 | 11 | `EdgeRupture.outlines`, `Plot.coords`, `RuptureArrays.outlineArray` |
| `EdgeRupture.depths` | 343-363 | 11 | 11 | `EdgeRupture.outlines`, `RuptureArrays.outlineArray` |
| `EdgeRupture._getGroupIndex` | 365-373 | 1 | 0 | not modelled |
| `EdgeRupture._computeStrikeDip` | 375-480 | 91 | 91 | `EdgeDip.upward`, `EdgeDip.addNormals`, `EdgeDip.signOf`, `EdgeDip.edgeDip`, `EdgeRupture.segQuads`, `EdgeRupture.addSums`, `EdgeRupture.strikeDip`, `EdgeRupture.computeStrikeDip`, `EdgeStrike.northward`, `EdgeStrike.addNorths`, `EdgeStrike.edgeStrike` |
| `EdgeRupture.getDepthToTop` | 482-487 | 1 | 1 | `RuptureArrays.getDepthToTop` |
| `EdgeRupture.getQuadrilaterals` | 489-520 | 21 | 21 | `EdgeRupture.getQuadrilaterals` |
| `EdgeRupture.computeRrup` | 522-597 | 46 | 46 | `EdgeDouble.nodeDistance`, `EdgeDouble.edgeRrup`, `EdgeRupture.meshQuads`, `EdgeRupture.computeRrup` |
| `EdgeRupture.computeRjb` | 599-674 | 46 | 46 | `EdgeDouble.nodeDistance`, `EdgeDouble.flattened`, `EdgeDouble.edgeRjb`, `EdgeRupture.meshQuads`, `EdgeRupture.computeRjb` |
| `EdgeRupture.computeGC2` | 676-695 | 2 | 0 | not modelled |

## impactutils/rupture/factory.py

| function | lines | body | cited | definitions |
|---|---|---|---|---|
| `get_rupture` | 22-93 | 38 | 37 | `RuptureFile.getFromText`, `RuptureFile.getFromJson`, `RuptureFile.getRupture`, `RuptureStop.ruptureOf` |
| `rupture_from_dict_and_origin` | 96-137 | 10 | 10 | `Factory.fromDictAndOrigin`, `RuptureFile.fromJson`, `RuptureHeap.fromDictAndOrigin` |
| `rupture_from_dict` | 140-183 | 20 | 20 | `Factory.rotatePolygon`, `Factory.fromDict`, `RuptureDict.RDict`, `RuptureDict.readTime`, `RuptureDict.ruptureFromDict`, `RuptureHeap.fromDict`, `RuptureOutput.readDocument`, `TimeText.strptime`, `TimeText.readTime`, `TimeUse.rupParse` |
| `_rotate_polygon` | 186-222 | 12 | 11 | `Factory.checkPolygon`, `Factory.rotatePolygon`, `RuptureFile.checkJsonPolygon` |
| `_check_polygon` | 225-261 | 23 | 21 | `Factory.nPairs`, `Factory.pairsOrdered`, `Factory.checkPolygon`, `Factory.textToJson`, `RuptureFile.checkPair`, `RuptureFile.checkJsonPolygon` |
| `text_to_json` | 264-397 | 91 | 91 | `Factory.tryRotations`, `Factory.tryAll`, `Factory.repair`, `Factory.repairAndValidate`, `Factory.readVert`, `Factory.lineParts`, `Factory.readCoords`, `Factory.readLine`, `Factory.readText`, `Factory.textToJson`, `PyNumber.pyFloat`, `RuptureFile.validateJson`, `RuptureOutput.docOf`, `RuptureOutput.readDocument` |
| `validate_json` | 400-439 | 23 | 23 | `Factory.checkAll`, `RuptureFile.checkPolygons`, `RuptureFile.validateJson`, `RuptureOutput.readDocument` |
| `is_quadrupture_class` | 442-491 | 36 | 35 | `Factory.quadAt`, `Factory.quadOk`, `Factory.quadsOf`, `Factory.classify`, `Factory.isQuadRupture` |

## impactutils/rupture/gc2.py

| function | lines | body | cited | definitions |
|---|---|---|---|---|
| `_computeGC2` | 17-276 | 213 | 213 | `Gc2.onTrace`, `Gc2.weight`, `Gc2.addQuad`, `Gc2.addGroup`, `Gc2.ry0Of`, `Gc2.finish`, `Gc2.endIndex`, `Gc2.pointPairs`, `Gc2.farthest`, `Gc2.frameOf`, `Gc2.turn`, `Gc2.flipGroup`, `Gc2.groupBase`, `Gc2.computeGC2` |
| `__calc_u_i` | 279-324 | 15 | 15 | `Gc2.calcU` |
| `__calc_t_i` | 327-371 | 15 | 15 | `Gc2.calcT` |

## impactutils/rupture/origin.py

| function | lines | body | cited | definitions |
|---|---|---|---|---|
| `Origin.__init__` | 41-113 | 35 | 35 | `Origin.checkCoord`, `Origin.moveType`, `Origin.fillMech`, `Origin.setAttrs`, `Origin.addRake`, `Origin.construct`, `PyNumber.originFloat` |
| `Origin.fromFile` | 116-136 | 9 | 9 | `RuptureDict.originFromFile` |
| `Origin.getHypo` | 138-143 | 1 | 1 | `RuptureHeap.mkQuad` |
| `Origin.setMechanism` | 145-201 | 27 | 27 | `Origin.mechDefaults`, `Origin.turnRake`, `Origin.setMechanism`, `RuptureHeap.mkQuad` |
| `write_event_file` | 204-257 | 30 | 30 | `EventFile.eventAttrs`, `EventFile.writeEvent`, `EventXml.writeElement`, `EventXml.writeEventText`, `TimeUse.fixedText`, `TimeUse.eventFormats` |
| `read_event_file` | 260-406 | 63 | 63 | `EventFile.readTime`, `EventFile.readEvent`, `EventXml.parse`, `EventXml.readEventText`, `PyNumber.pyFloat`, `TimeText.strptime`, `TimeUse.eventParsers` |
| `read_source` | 409-442 | 25 | 25 | `EventFile.readValue`, `EventFile.readLines`, `EventFile.readSource`, `PyNumber.pyFloat`, `PyNumber.pyInt` |

## impactutils/rupture/plotrupture.py

| function | lines | body | cited | definitions |
|---|---|---|---|---|
| `plot_rupture_wire3d` | 13-45 | 19 | 19 | `Plot.wire`, `Plot.wire3d` |
| `map_rupture` | 48-82 | 22 | 22 | `Plot.dropNan`, `Plot.mapRupture` |

## impactutils/rupture/point_rupture.py

| function | lines | body | cited | definitions |
|---|---|---|---|---|
| `PointRupture.__init__` | 26-66 | 24 | 24 | `RuptureDict.RDict`, `RuptureDict.stamp`, `RuptureDict.addOrigin`, `RuptureDict.pointRup`, `RuptureHeap.Obj`, `RuptureHeap.mkPoint`, `RuptureOutput.docOf`, `RuptureOutput.document`, `TimeUse.rupFormat` |
| `PointRupture.getLength` | 68-73 | 1 | 0 | not modelled |
| `PointRupture.getWidth` | 75-80 | 1 | 1 | `RuptureDict.pointShape` |
| `PointRupture.getArea` | 82-87 | 1 | 1 | `RuptureDict.pointShape` |
| `PointRupture.getStrike` | 89-94 | 1 | 1 | `RuptureDict.pointShape` |
| `PointRupture.getDip` | 96-101 | 1 | 1 | `RuptureDict.pointShape` |
| `PointRupture.getDepthToTop` | 103-108 | 1 | 1 | `RuptureDict.pointShape` |
| `PointRupture.getQuadrilaterals` | 110-111 | 1 | 1 | `Plot.Shape`, `RuptureDict.pointShape` |
| `PointRupture.lats` | 114-118 | 1 | 1 | `Plot.Shape` |
| `PointRupture.lons` | 121-125 | 1 | 1 | `Plot.Shape` |
| `PointRupture.depths` | 128-132 | 1 | 0 | not modelled |
| `PointRupture.computeRjb` | 134-147 | 1 | 0 | not modelled |
| `PointRupture.computeRrup` | 149-162 | 1 | 0 | not modelled |
| `PointRupture._computeRdist` | 164-270 | 82 | 82 | `Distance.scaling`, `Distance.clipped`, `Distance.tableRange`, `Distance.computeRdist` |
| `PointRupture.computeGC2` | 272-296 | 8 | 7 | `Distance.zeroGC2` |

## impactutils/rupture/quad_rupture.py

| function | lines | body | cited | definitions |
|---|---|---|---|---|
| `QuadRupture.__init__` | 38-79 | 26 | 26 | `QuadRupture.flatten`, `RuptureArrays.addVertices`, `RuptureArrays.getRuptureAsArrays`, `RuptureDict.stamp`, `RuptureDict.addOrigin`, `RuptureDict.quadRup`, `RuptureHeap.Obj`, `RuptureHeap.mkQuad`, `TimeUse.rupFormat` |
| `QuadRupture.getDepthAtPoint` | 81-154 | 49 | 49 | `QuadDepth.smallDistance`, `QuadDepth.nearestLoop`, `QuadDepth.nearestQuad`, `QuadDepth.quadProj`, `QuadDepth.downDipDistance`, `QuadDepth.quadDepth`, `QuadDepth.getDepthAtPoint`, `QuadRupture.depthAt` |
| `QuadRupture.getLength` | 156-167 | 4 | 4 | `QuadLength.ruptureLength`, `QuadRupture.getLength` |
| `QuadRupture.getWidth` | 169-181 | 5 | 5 | `QuadRupture.getWidth`, `QuadWidth.widthSum`, `QuadWidth.ruptureWidth` |
| `QuadRupture.getArea` | 183-196 | 6 | 6 | `QuadRupture.getArea`, `QuadWidth.ruptureArea` |
| `QuadRupture.fromTrace` | 199-392 | 133 | 126 | `FromTrace.traceProj`, `FromTrace.theta`, `FromTrace.traceQuad`, `FromTrace.fromTrace`, `QuadRupture.rotate`, `QuadRupture.traceAngle`, `QuadRupture.lowerCorner`, `QuadRupture.lowerDepth`, `QuadRupture.traceGroups`, `RuptureOutput.docOf` |
| `QuadRupture.writeTextFile` | 394-421 | 15 | 15 | `PyNumber.coordinate`, `QuadRupture.writeText` |
| `QuadRupture.fromOrientation` | 424-529 | 41 | 41 | `FromTrace.cornerP1`, `FromTrace.orientationTrace`, `FromTrace.fromOrientation` |
| `QuadRupture.fromVertices` | 532-672 | 80 | 55 | `QuadRupture.groupPolygon`, `QuadRupture.fromVertices` |
| `QuadRupture.getQuadrilaterals` | 674-683 | 1 | 0 | not modelled |
| `QuadRupture.getStrike` | 685-709 | 13 | 13 | `QuadRupture.getStrike`, `QuadStrike.quadAzimuth`, `QuadStrike.quadStrike` |
| `QuadRupture.getDepthToTop` | 711-724 | 7 | 7 | `QuadRupture.getDepthToTop` |
| `QuadRupture.getDip` | 726-740 | 7 | 7 | `QuadDip.dipSum`, `QuadDip.ruptureDip`, `QuadRupture.getDip` |
| `QuadRupture.getIndividualWidths` | 742-755 | 6 | 6 | `QuadDepth.individualWidths`, `QuadWidth.eachWidth` |
| `QuadRupture.getIndividualTopLengths` | 757-772 | 8 | 8 | `QuadDepth.individualTopLengths`, `QuadLength.topLengths` |
| `QuadRupture._fixStrikeDirection` | 775-794 | 19 | 19 | `QuadRupture.fixStrikeDirection` |
| `QuadRupture._setQuadrilaterals` | 796-865 | 56 | 56 | `QuadRupture.segments`, `QuadRupture.nQuads`, `QuadRupture.rawQuad`, `QuadRupture.fixQuad`, `QuadRupture.quadrilaterals`, `QuadRupture.groupIndexFrom`, `RuptureArrays.getRuptureAsArrays`, `RuptureArrays.groupEnds` |
| `QuadRupture._getGroupIndex` | 867-875 | 1 | 0 | not modelled |
| `QuadRupture.lats` | 878-908 | 20 | 20 | `QuadRupture.groupOutline`, `RuptureArrays.outlineArray` |
| `QuadRupture.lons` | 911-940 | 20 | 20 | `QuadRupture.groupOutline`, `RuptureArrays.outlineArray` |
| `QuadRupture.depths` | 943-973 | 20 | 20 | `QuadRupture.groupOutline`, `RuptureArrays.outlineArray` |
| `QuadRupture.getDeps` | 975-982 | 1 | 1 | `RuptureArrays.getDeps` |
| `QuadRupture.getNumGroups` | 984-992 | 1 | 1 | `QuadDepth.numGroups` |
| `QuadRupture.getNumQuads` | 994-1001 | 1 | 1 | `QuadDepth.numQuads` |
| `QuadRupture.getRuptureAsArrays` | 1003-1014 | 3 | 3 | `RuptureArrays.getRuptureAsArrays` |
| `QuadRupture.getRuptureAsMesh` | 1016-1024 | 2 | 0 | not modelled |
| `QuadRupture.computeRjb` | 1026-1074 | 27 | 27 | `QuadDistDouble.leastDistance`, `QuadDistDouble.quadRjb`, `QuadRupture.computeRjb` |
| `QuadRupture.computeRrup` | 1076-1114 | 17 | 17 | `QuadDistDouble.leastDistance`, `QuadDistDouble.quadRrup`, `QuadRupture.computeRrup` |
| `QuadRupture.computeGC2` | 1116-1132 | 2 | 0 | `QuadRupture.computeRrup` |

## impactutils/rupture/utils.py

| function | lines | body | cited | definitions |
|---|---|---|---|---|
| `is_quad` | 16-62 | 19 | 19 | `RuptureUtils.bottomLength`, `RuptureUtils.newP2`, `RuptureUtils.onPlane`, `RuptureUtils.isQuad` |
| `get_quad_width` | 65-85 | 9 | 9 | `QuadWidth.quadWidth`, `RuptureUtils.quadWidth` |
| `get_quad_mesh` | 88-176 | 57 | 49 | `EdgeDouble.unitStep`, `EdgeDouble.nodeCount`, `EdgeDouble.D3.between`, `EdgeDouble.alongCount`, `EdgeDouble.topNode`, `EdgeDouble.bottomNode`, `EdgeDouble.downLengths`, `EdgeDouble.downCount`, `EdgeDouble.gridNode`, `EdgeDouble.gridNodes`, `EdgeRupture.meshNx`, `EdgeRupture.meshNy`, `RuptureUtils.topPoint`, `RuptureUtils.bottomPoint`, `RuptureUtils.meshNode`, `RuptureUtils.meshCell`, `RuptureUtils.cellCentre`, `RuptureUtils.meshCount` |
| `get_local_unit_slip_vector` | 179-203 | 9 | 9 | `RuptureUtils.slip`, `SlipDouble.localSlip` |
| `get_local_unit_slip_vector_DS` | 206-228 | 7 | 7 | `RuptureUtils.slipDS`, `SlipDouble.localSlipDS` |
| `get_local_unit_slip_vector_SS` | 231-253 | 7 | 7 | `RuptureUtils.slipSS`, `SlipDouble.localSlipSS` |
| `reverse_quad` | 256-268 | 1 | 1 | `QuadLength.reverseQuad`, `RuptureUtils.reverseQuad` |
| `get_quad_slip` | 271-298 | 15 | 15 | `QuadDepth.quadSlip` |
| `get_quad_length` | 301-316 | 5 | 5 | `QuadLength.quadLength`, `RuptureUtils.quadLength` |
| `get_quad_dip` | 319-333 | 4 | 4 | `QuadDip.quadDip`, `RuptureUtils.quadDip` |
| `get_quad_normal` | 336-354 | 8 | 8 | `QuadDip.unitNormal`, `RuptureUtils.quadNormal` |
| `get_quad_strike_vector` | 357-372 | 5 | 5 | `QuadDip.strikeVector`, `RuptureUtils.quadStrikeVector` |
| `get_quad_down_dip_vector` | 375-393 | 7 | 7 | `QuadDip.downDipVector`, `RuptureUtils.quadDownDipVector` |
| `get_vertical_vector` | 396-414 | 7 | 7 | `QuadDip.verticalVector`, `RuptureUtils.verticalVector` |
| `_quad_distance` | 417-490 | 46 | 46 | `QuadDistDouble.rowSum`, `QuadDistDouble.quadNormal`, `QuadDistDouble.insideQuad`, `QuadDistDouble.edgesSq`, `QuadDistDouble.quadDistance`, `QuadDistDouble.corners`, `RuptureUtils.outerNormal`, `RuptureUtils.inside`, `RuptureUtils.edgeDistSq`, `RuptureUtils.quadDistSq`, `RuptureUtils.surface`, `RuptureUtils.quadDistance` |
| `get_distance_to_plane` | 493-531 | 22 | 22 | `RuptureUtils.distanceToPlane` |
| `_distance_sq_to_segment` | 534-587 | 21 | 21 | `QuadDistDouble.rowSum`, `QuadDistDouble.squares`, `QuadDistDouble.segmentSq`, `RuptureUtils.distanceSqToSegment` |
| `rake_to_mech` | 590-610 | 11 | 11 | `RuptureUtils.rakeToMech` |

## impactutils/textformat/text.py

| function | lines | body | cited | definitions |
|---|---|---|---|---|
| `dec_to_roman` | 15-37 | 6 | 6 | `Text.decToRoman` |
| `_dec_to_roman` | 40-62 | 10 | 10 | `Text.decToRomanAux` |
| `set_num_precision` | 65-81 | 6 | 6 | `Double.setNumPrecisionFloat`, `Double.setNumPrecisionInt`, `PyBase.trunc`, `Text.sciRound`, `Text.setNumPrecisionFloat`, `Text.setNumPrecisionInt` |
| `pop_round` | 84-98 | 1 | 1 | `Double.popRound`, `Text.popRound` |
| `dollar_round` | 101-134 | 23 | 23 | `DoubleMoney.shortest`, `DoubleMoney.reprFloat`, `DoubleMoney.scaledText`, `DoubleMoney.dollarRound`, `Text.dollarRound` |
| `pop_round_short` | 137-163 | 13 | 13 | `Double.popRoundShort`, `Text.popRoundShort` |
| `round_to_nearest` | 166-186 | 10 | 10 | `Double.roundToNearest`, `Double.smallStep`, `PyBase.round`, `PyBase.trunc`, `Text.roundToNearestGe1`, `Text.numDecimals`, `Text.roundToNearest` |
| `floor_to_nearest` | 189-208 | 10 | 10 | `Double.floorToNearest`, `Double.smallStep`, `Text.floorToNearestGe1`, `Text.floorToNearest` |
| `ceil_to_nearest` | 211-230 | 10 | 10 | `Double.ceilToNearest`, `Double.smallStep`, `Text.ceilToNearestGe1`, `Text.ceilToNearest` |
| `commify` | 233-253 | 7 | 7 | `Text.splitSign`, `Text.commifyStep`, `Text.commifyRun`, `Text.CommifyReturns` |

## impactutils/time/ancient_time.py

| function | lines | body | cited | definitions |
|---|---|---|---|---|
| `Specifier.__new__` | 9-14 | 5 | 1 | `Time.matchSpec` |
| `Specifier.ispresent_in` | 16-18 | 2 | 2 | `Time.isPresentIn` |
| `Specifier.replace_in` | 20-28 | 8 | 8 | `Time.replaceIn` |
| `HistoricTime.strftime` | 33-52 | 18 | 18 | `Time.futureYear`, `Time.strftime`, `TimeText.timeText` |

## impactutils/time/timeutils.py

| function | lines | body | cited | definitions |
|---|---|---|---|---|
| `get_recent_timezone_data` | 30-76 | 37 | 30 | `ZoneFiles.archiveName`, `ZoneFiles.linkLoop`, `ZoneFiles.chooseLink`, `ZoneFiles.Disk.write`, `ZoneFiles.Disk.extract`, `ZoneFiles.Disk.move`, `ZoneFiles.Disk.rmtree`, `ZoneFiles.Member.split`, `ZoneFiles.unpackLoop`, `ZoneFiles.unpack` |
| `_get_utm_zone` | 79-81 | 2 | 2 | `DoublePlaces.utmZone`, `Time.utmZone` |
| `ElapsedTime.__init__` | 85-86 | 1 | 0 | not modelled |
| `ElapsedTime.getTimeElapsed` | 88-133 | 27 | 27 | `DoublePlaces.floatRem`, `DoublePlaces.getTimeElapsed`, `Time.Elapsed`, `Time.floatRem`, `Time.getTimeElapsed` |
| `ElapsedTime.getElapsedString` | 135-171 | 20 | 20 | `Time.getElapsedString` |
| `ElapsedTime.getTimeStr` | 173-195 | 10 | 10 | `Time.periods`, `Time.periodAt`, `Time.getTimeStr` |
| `LocalTime.__init__` | 199-213 | 5 | 5 | `Time.localTime` |
| `LocalTime._find_time_zone` | 215-256 | 41 | 41 | `DoublePlaces.nautical`, `Time.isInside`, `Time.outsideBounds`, `Time.scanZones`, `Time.finishZone`, `Time.localTime` |
| `LocalTime.getLocalTime` | 258-264 | 1 | 1 | `Time.getLocalTime` |
| `LocalTime.getUTCOffset` | 266-272 | 1 | 1 | `Time.getUTCOffset` |
| `LocalTime.getTimeZone` | 274-275 | 1 | 1 | `Time.getTimeZone` |
| `LocalTime.update` | 277-281 | 4 | 3 | `Time.localTime` |
| `LocalTime.__del__` | 283-284 | 1 | 0 | `Time.localTime` |
| `LocalTimeNE.__init__` | 288-304 | 7 | 7 | `Time.localTimeNE` |
| `LocalTimeNE._find_time_zone` | 306-363 | 57 | 57 | `DoublePlaces.nautical`, `Time.scanZonesNE`, `Time.localTimeNE` |
| `TimeConversion.__init__` | 367-448 | 41 | 28 | `Time.Raster`, `Time.defaultRaster` |
| `TimeConversion.get_timezone_code` | 450-518 | 40 | 40 | `DoublePlaces.rasterCell`, `Time.clamp`, `Time.rounding`, `Time.rasterCell`, `Time.getTimezoneCode` |
| `TimeConversion.read_tiff` | 520-531 | 4 | 0 | not modelled |
| `TimeConversion.to_localtime` | 533-551 | 4 | 4 | `Time.toLocaltime` |
| `TimeConversion.to_utctime` | 553-575 | 6 | 6 | `Time.toUtctime` |

## impactutils/transfer/copysender.py

| function | lines | body | cited | definitions |
|---|---|---|---|---|
| `CopySender.send` | 46-88 | 24 | 24 | `Sender.copyLoop`, `Sender.sendDir`, `Sender.cancelPath`, `Sender.removeMarker`, `Sender.makeRemote`, `Sender.send`, `SenderRace.sendCode`, `SenderRace.expand` |
| `CopySender.cancel` | 90-108 | 7 | 7 | `Sender.cancelPath`, `Sender.cancel` |
| `CopySender._copy_file_with_path` | 110-153 | 16 | 16 | `Sender.tmpName`, `Sender.dirTarget`, `Sender.copyDirFile`, `Sender.copyListed`, `SenderRace.tempName`, `SenderRace.expand` |

## impactutils/transfer/emailsender.py

| function | lines | body | cited | definitions |
|---|---|---|---|---|
| `EmailSender.send` | 116-214 | 80 | 80 | `Email.Config`, `Email.maxBcc`, `Email.primary`, `Email.hasFiles`, `Email.attachments`, `Email.zipEntries`, `Email.compose`, `Email.sendBatches`, `Email.Send` |
| `EmailSender.cancel` | 216-265 | 33 | 33 | `Email.Config`, `Email.composeCancel`, `Email.Cancel` |
| `_split_addresses` | 268-295 | 14 | 14 | `Email.round`, `Email.loop`, `Email.split`, `Email.Splits` |
| `_send_email` | 298-348 | 35 | 35 | `Email.tryServers`, `Email.sendEmail` |
| `_get_encoded_message` | 353-419 | 49 | 49 | `Email.compose` |

## impactutils/transfer/factory.py

| function | lines | body | cited | definitions |
|---|---|---|---|---|
| `get_sender_class` | 8-34 | 9 | 9 | `Sender.types`, `Sender.getSenderClass` |

## impactutils/transfer/ftpsender.py

| function | lines | body | cited | definitions |
|---|---|---|---|---|
| `FTPSender.send` | 56-98 | 30 | 30 | `Ftp.sendListed`, `Ftp.sendDir`, `Ftp.send` |
| `FTPSender.cancel` | 100-129 | 16 | 16 | `Ftp.asOther`, `Ftp.cancel` |
| `FTPSender._setup` | 131-169 | 26 | 26 | `Ftp.setup` |
| `FTPSender._create_remote_directory` | 171-197 | 15 | 15 | `Ftp.enter`, `Ftp.enterAll`, `Ftp.createDir` |
| `FTPSender._copy_file_with_path` | 199-244 | 18 | 15 | `Ftp.remoteFile`, `Ftp.copyWithPath` |
| `FTPSender.__sendfile` | 246-264 | 5 | 5 | `Ftp.sendFile` |
| `FTPSender._join` | 266-267 | 1 | 0 | not modelled |
| `FTPSender._split` | 269-270 | 1 | 0 | not modelled |
| `FTPSender._path_split` | 272-276 | 4 | 4 | `Ftp.pathFolder` |

## impactutils/transfer/pdlsender.py

| function | lines | body | cited | definitions |
|---|---|---|---|---|
| `PDLSender.__init__` | 70-96 | 4 | 0 | not modelled |
| `PDLSender._replace_required_properties` | 98-102 | 4 | 4 | `Pdl.steps` |
| `PDLSender._replace_product_properties` | 104-125 | 21 | 21 | `Pdl.productNugget`, `Pdl.productText` |
| `PDLSender._replace_files` | 127-138 | 10 | 9 | `Pdl.fileText`, `Pdl.directoryText` |
| `PDLSender._replace_optional_properties` | 140-161 | 18 | 18 | `Pdl.optionalNugget`, `Pdl.optionalText`, `TimeText.pdlTime` |
| `PDLSender.send` | 163-215 | 23 | 23 | `Pdl.steps`, `Pdl.sendCommand`, `Pdl.send`, `Utf8.pdlEnd` |
| `PDLSender.cancel` | 217-254 | 15 | 15 | `Pdl.cancelCommand`, `Pdl.cancel` |

## impactutils/transfer/securesender.py

| function | lines | body | cited | definitions |
|---|---|---|---|---|
| `SecureSender.send` | 50-107 | 37 | 37 | `Secure.loop`, `Secure.sendDir`, `Secure.count`, `Secure.send`, `SenderState.sendSession` |
| `SecureSender.cancel` | 109-138 | 17 | 17 | `Secure.testCmd`, `Secure.cancel`, `SenderState.cancelSession` |
| `SecureSender._connect` | 140-166 | 16 | 16 | `SenderState.connectArgs` |
| `SecureSender._copy_file_with_path` | 168-224 | 26 | 25 | `Secure.upload`, `Secure.copyListed`, `Secure.ensureFolder`, `Secure.copyDirFile` |
| `SecureSender._check_remote_folder` | 226-243 | 7 | 7 | `Secure.testCmd`, `Secure.test`, `Secure.checkFolder` |
| `SecureSender._make_remote_folder` | 245-270 | 15 | 15 | `Secure.testCmd`, `Secure.clearFolder`, `Secure.makeFolder` |

## impactutils/transfer/sender.py

| function | lines | body | cited | definitions |
|---|---|---|---|---|
| `Sender.__init__` | 34-79 | 24 | 23 | `Sender.checkProps`, `Sender.checkFiles`, `Sender.checkDir`, `Sender.construct`, `Sender.Config`, `SenderLists.listStep`, `SenderState.Obj`, `SenderState.filesOf`, `SenderState.newObj` |
| `Sender.addProperty` | 81-82 | 1 | 1 | `SenderState.call` |
| `Sender.addFiles` | 84-88 | 4 | 4 | `SenderState.call` |
| `Sender.changeDirectory` | 90-95 | 5 | 5 | `Email.allLocalFiles`, `Ftp.localFiles`, `Sender.allLocalFiles`, `SenderState.call` |
| `Sender.getAllLocalFiles` | 97-112 | 8 | 4 | `Email.allLocalFiles`, `Ftp.localFiles`, `Sender.allLocalFiles` |
| `Sender.send` | 115-122 | 1 | 0 | not modelled |
| `Sender.cancel` | 125-131 | 1 | 0 | not modelled |
| `Sender.getRequiredProperties` | 133-139 | 1 | 1 | `SenderLists.requiredAt`, `SenderLists.listStep` |
| `Sender.getOptionalProperties` | 141-147 | 1 | 1 | `SenderLists.optionalAt`, `SenderLists.listStep` |

## impactutils/vectorutils/ecef.py

| function | lines | body | cited | definitions |
|---|---|---|---|---|
| `ecef2latlon` | 17-73 | 30 | 30 | `Vector.wgsA`, `Vector.wgsE`, `Vector.wgsB`, `Vector.wgsEp`, `Vector.reduced`, `Vector.latRad`, `Vector.lonDeg`, `Vector.altitude`, `Vector.ecef2latlon` |
| `latlon2ecef` | 76-103 | 10 | 10 | `EcefDouble.eccentricitySquared`, `EcefDouble.verticalRadius`, `EcefDouble.latlon2ecef`, `Vector.primeVertical`, `Vector.latlon2ecef` |

## impactutils/vectorutils/point.py

| function | lines | body | cited | definitions |
|---|---|---|---|---|
| `Point.__init__` | 6-16 | 3 | 0 | not modelled |
| `Point.x` | 19-26 | 1 | 0 | not modelled |
| `Point.y` | 29-36 | 1 | 0 | not modelled |
| `Point.z` | 39-46 | 1 | 0 | not modelled |
| `Point.azimuth` | 48-57 | 2 | 0 | not modelled |

## impactutils/vectorutils/vector.py

| function | lines | body | cited | definitions |
|---|---|---|---|---|
| `Vector.__init__` | 17-31 | 3 | 3 | `Vector.V3`, `VectorDouble.D3`, `VectorOps.init` |
| `Vector.fromPoint` | 34-48 | 3 | 3 | `QuadLength.fromPoint`, `RuptureUtils.fromPoint` |
| `Vector.fromTuple` | 51-62 | 2 | 1 | `VectorOps.fromTuple` |
| `Vector.__add__` | 64-79 | 3 | 3 | `Vector.V3.add`, `VectorDouble.D3.add`, `VectorOps.opAdd` |
| `Vector.__sub__` | 81-97 | 4 | 4 | `Vector.V3.sub`, `VectorDouble.D3.sub`, `VectorOps.opSub` |
| `Vector.__mul__` | 99-117 | 6 | 6 | `Vector.V3.mul`, `VectorDouble.D3.mul`, `VectorOps.opMul` |
| `Vector.__rmul__` | 119-137 | 6 | 6 | `Vector.V3.mul`, `VectorDouble.D3.mul`, `VectorOps.opMul` |
| `Vector.__eq__` | 139-157 | 6 | 5 | `VectorOps.opEq` |
| `Vector.distance` | 159-176 | 5 | 5 | `Vector.V3.distance`, `VectorDouble.D3.distance`, `VectorOps.opDistance` |
| `Vector.cross` | 178-195 | 5 | 5 | `Vector.V3.cross`, `VectorDouble.D3.cross`, `VectorOps.opCross` |
| `Vector.dot` | 197-214 | 5 | 5 | `Vector.V3.dot`, `VectorDouble.D3.dots`, `VectorOps.opDot` |
| `Vector.getArray` | 216-221 | 1 | 0 | `VectorOps.V3.getArray` |
| `Vector.getTuple` | 223-228 | 1 | 0 | `VectorOps.V3.getTuple` |
| `Vector.norm` | 230-239 | 5 | 5 | `Vector.V3.norm`, `VectorDouble.D3.norm` |
| `Vector.mag` | 241-247 | 2 | 2 | `Vector.V3.mag`, `VectorDouble.D3.mag` |
| `Vector.toPoint` | 249-258 | 2 | 1 | `RuptureUtils.toPoint` |
| `Vector.__repr__` | 260-264 | 1 | 0 | not modelled |
