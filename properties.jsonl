{"id": "C01", "title": "Roman numerals are exact and total on 1..3999", "statement": "dec_to_roman raises ValueError exactly for inputs <= 0 or >= 4000; for every other integer it returns the canonical numeral (thousands, hundreds, tens and units blocks in order), and reading that numeral back by the usual subtractive rule gives the input.", "quantifier": "every integer input", "why_tests_cant": "The claim is about every integer, including all rejected ones; a test samples a handful of the 3999 numerals.", "anchors": ["impactutils/textformat/text.py:dec_to_roman", "impactutils/textformat/text.py:_dec_to_roman"]}
{"id": "C02", "title": "commify inserts thousands separators and changes nothing else", "statement": "For every integer, commify returns the decimal digits with a separator before every group of three digits counted from the right and nowhere else; deleting the separators gives back the original text.", "quantifier": "every integer (any number of digits, either sign) and every separator that is non-empty, backslash-free and does not start with a digit", "why_tests_cant": "The loop runs once per group, so the digit count is unbounded.", "anchors": ["impactutils/textformat/text.py:commify"]}
{"id": "C03", "title": "commify terminates for every usable separator", "statement": "The substitution loop of commify stops for every text and every non-empty separator that does not start with a digit. (For the empty separator it does not stop on texts with a run of four or more leading digits.)", "quantifier": "every text and every separator, every number of loop passes", "why_tests_cant": "Non-termination cannot be observed by a finite test and termination is a claim about all inputs.", "anchors": ["impactutils/textformat/text.py:commify"]}
{"id": "C04", "title": "round_to_nearest returns a nearest multiple, ties to even", "statement": "For round_value >= 1 integral, the result is a multiple of round_value, no other multiple is strictly closer to the value, and on a tie the even multiple is chosen.", "quantifier": "every rational value and every integer round_value >= 1 (exact arithmetic)", "why_tests_cant": "Ranges over all values including all ties.", "anchors": ["impactutils/textformat/text.py:round_to_nearest"]}
{"id": "C05", "title": "floor_to_nearest and ceil_to_nearest bracket the value", "statement": "For an integral step >= 1 floor_to_nearest is the greatest multiple of the step <= value and ceil_to_nearest the least multiple >= value; round_to_nearest lies between them; all three fix multiples of the step.", "quantifier": "every rational value and every integer step >= 1 (exact arithmetic)", "why_tests_cant": "Ranges over all values.", "anchors": ["impactutils/textformat/text.py:floor_to_nearest", "impactutils/textformat/text.py:ceil_to_nearest"]}
{"id": "C06", "title": "pop_round_short reports the population it was given to within its unit", "statement": "Below 1000 the value is printed in full with no suffix; from 1000 up the printed count times its suffix unit differs from the value by no more than the rounding allows ('k': half a thousand; 'm': the count is the thousands-rounded value floored to millions), and the 'm' suffix appears exactly when usemillion is set and value >= 1,000,000.", "quantifier": "every integer value and both settings of usemillion", "why_tests_cant": "All values and both boundaries.", "anchors": ["impactutils/textformat/text.py:pop_round_short"]}
{"id": "C07", "title": "dollar_round picks the unit by magnitude", "statement": "The unit printed by dollar_round is thousand/K for 1e3 <= v < 1e6, million/M for 1e6 <= v < 1e9 and billion/B from 1e9, in both modes. (In long mode the code prints 'billion' for exactly 1,000,000.)", "quantifier": "every value and both modes", "why_tests_cant": "The only failing value is a single point; sampling misses it.", "anchors": ["impactutils/textformat/text.py:dollar_round"]}
{"id": "C08", "title": "set_num_precision keeps the requested number of significant digits", "statement": "In float mode the result has at most `precision` significant decimal digits and differs from the input by at most half a unit of the last kept digit; the function is idempotent.", "quantifier": "every rational number and every precision >= 1 (exact decimal arithmetic)", "why_tests_cant": "Ranges over all magnitudes, including carries such as 999.5 -> 1000.", "anchors": ["impactutils/textformat/text.py:set_num_precision"]}
{"id": "C09", "title": "Elapsed time components add back up", "statement": "getTimeElapsed raises exactly when time2 < time1; otherwise weeks, days, hours, minutes and seconds are non-negative, below 7, 24, 60, 60 for the lower units, and add up to the whole number of seconds between the two times.", "quantifier": "every pair of times", "why_tests_cant": "All durations; carries at every unit boundary.", "anchors": ["impactutils/time/timeutils.py:ElapsedTime.getTimeElapsed"]}
{"id": "C10", "title": "Elapsed string names the two largest units", "statement": "getElapsedString prints the largest non-zero unit and the next smaller one with their exact counts, singular exactly when the count is 1, and seconds alone below one minute; the printed amount never exceeds the elapsed time and falls short of it by less than one of the smaller unit.", "quantifier": "every pair of times with then <= now", "why_tests_cant": "All durations and plural combinations.", "anchors": ["impactutils/time/timeutils.py:ElapsedTime.getElapsedString", "impactutils/time/timeutils.py:ElapsedTime.getTimeStr"]}
{"id": "C11", "title": "UTM zone is valid and contains the longitude", "statement": "_get_utm_zone returns a zone number from 1 to 60 whose six-degree band contains the longitude modulo 360 degrees.", "quantifier": "every rational longitude, in or out of [-180, 180]", "why_tests_cant": "All longitudes, wrap-around included.", "anchors": ["impactutils/time/timeutils.py:_get_utm_zone"]}
{"id": "C12", "title": "Time-zone raster look-up never leaves the raster", "statement": "For an ordinary raster (min lon <= max lon, min lat <= max lat, positive resolution, non-empty shape) get_timezone_code reads a cell with 0 <= row < rows and 0 <= col < cols for every coordinate, in or out of the extents, and every rounding method; with 'floor' and coordinates inside the extents the cell contains the point.", "quantifier": "every coordinate, every well-formed raster, all rounding methods", "why_tests_cant": "All coordinates and rasters.", "anchors": ["impactutils/time/timeutils.py:TimeConversion.get_timezone_code"]}
{"id": "C13", "title": "Time-zone look-up honours rasters that cross the date line", "statement": "For a raster whose max lon is smaller than its min lon the look-up is meant to map every longitude inside the raster to its own column. (The clamp runs before the wrap test and sends every such longitude to a boundary.)", "quantifier": "every longitude and every date-line-crossing raster", "why_tests_cant": "A claim about every longitude inside such a raster.", "anchors": ["impactutils/time/timeutils.py:TimeConversion.get_timezone_code"]}
{"id": "C14", "title": "to_localtime and to_utctime honour the rounding method", "statement": "to_localtime/to_utctime use the cell that get_timezone_code returns for the rounding_method passed. (The argument is not forwarded.)", "quantifier": "every coordinate, raster and rounding method", "why_tests_cant": "All inputs for which the methods differ.", "anchors": ["impactutils/time/timeutils.py:TimeConversion.to_localtime", "impactutils/time/timeutils.py:TimeConversion.to_utctime"]}
{"id": "C15", "title": "HistoricTime maps old years to an equivalent future year", "statement": "For a year before 1900 strftime formats with a year that is after 1900, congruent modulo 400 (hence same leap-year status and same weekday for every date) and substitutes the true year for %Y. (It fails with AssertionError for the years congruent to 1900 modulo 400: 1500, 1100, 700, 300.)", "quantifier": "every year from 1 to 1899 and every month/day", "why_tests_cant": "A test samples a few years; the failures are four isolated years.", "anchors": ["impactutils/time/ancient_time.py:HistoricTime.strftime"]}
{"id": "C16", "title": "%Y substitution respects percent escaping", "statement": "Replacing %Y in a format string replaces exactly the %Y directives that strftime would interpret (an odd run of percent signs before Y) and leaves everything else unchanged, for every format string.", "quantifier": "every format string and every replacement", "why_tests_cant": "All strings, arbitrary runs of percent signs.", "anchors": ["impactutils/time/ancient_time.py:Specifier.replace_in"]}
{"id": "C17", "title": "LocalTime uses the first containing zone, else nautical time", "statement": "The local time is UTC plus the offset of the first zone whose bounding box and polygon contain the point, and otherwise UTC plus round(lon/15) hours, an offset within half an hour of lon/15.", "quantifier": "every list of zones and every coordinate", "why_tests_cant": "All zone lists.", "anchors": ["impactutils/time/timeutils.py:LocalTime._find_time_zone"]}
{"id": "C18", "title": "LocalTime accessors work on every constructed object", "statement": "After construction getLocalTime, getUTCOffset (a timedelta) and getTimeZone return values. (getTimeZone reads an attribute that is never set; construction fails on an empty shapefile; the offset is an int on the nautical path.)", "quantifier": "every constructed object and zone list", "why_tests_cant": "Every construction path.", "anchors": ["impactutils/time/timeutils.py:LocalTime.getTimeZone", "impactutils/time/timeutils.py:LocalTime._find_time_zone"]}
{"id": "C19", "title": "Compass direction is the nearest compass point", "statement": "get_compass_dir_azimuth returns a compass point no farther (in degrees) from the normalised azimuth than any other point of the chosen resolution; the result is total for azimuths in [-360, 360]; it raises exactly for an unknown resolution or format. (Above 360 degrees the azimuth is not normalised: 450 degrees is reported as north.)", "quantifier": "every azimuth from -360 to 360 degrees, every resolution and both formats", "why_tests_cant": "All azimuths including ties and negatives.", "anchors": ["impactutils/mapping/compass.py:get_compass_dir_azimuth"]}
{"id": "C20", "title": "get_compass_dir honours the format argument", "statement": "get_compass_dir returns its answer in the requested format. (The format argument is not forwarded.)", "quantifier": "every pair of points, resolution and format", "why_tests_cant": "A claim about all arguments.", "anchors": ["impactutils/mapping/compass.py:get_compass_dir"]}
{"id": "C21", "title": "City filters keep exactly the matching cities in order", "statement": "limitByBounds keeps exactly the cities with xmin < lon <= xmax and ymin < lat <= ymax, limitByPopulation exactly those with pop >= threshold, limitByRadius exactly those within the radius; each preserves order and multiplicity; filters commute and are idempotent.", "quantifier": "every list of cities and all bounds", "why_tests_cant": "All city lists.", "anchors": ["impactutils/mapping/city.py:Cities.limitByBounds", "impactutils/mapping/city.py:Cities.limitByPopulation", "impactutils/mapping/city.py:Cities.limitByRadius"]}
{"id": "C22", "title": "limitByPopulation error rules", "statement": "limitByPopulation raises KeyError exactly when there is no population column, otherwise ValueError exactly when minpop >= pop, and otherwise succeeds.", "quantifier": "every table and both arguments", "why_tests_cant": "All inputs.", "anchors": ["impactutils/mapping/city.py:Cities.limitByPopulation"]}
{"id": "C23", "title": "limitByGrid keeps the most populous cities of each cell", "statement": "Each grid cell contributes its cities_per_grid most populous cities, at most nx*ny*cities_per_grid in total, and no city appears twice. (Every city on the western or southern edge of the data set is dropped, however populous.)", "quantifier": "every list of cities, every grid size >= 1 and every per-cell limit", "why_tests_cant": "All city lists and grids.", "anchors": ["impactutils/mapping/city.py:Cities.limitByGrid"]}
{"id": "C24", "title": "Labels kept by map-collision filtering never overlap", "statement": "The cities kept by limitByMapCollision have pairwise disjoint label boxes, the first city is always kept, and order is preserved; a city is kept iff its box is clear of all earlier boxes, including those of rejected cities (so some placeable cities are dropped).", "quantifier": "every list of boxes", "why_tests_cant": "All lists of boxes.", "anchors": ["impactutils/mapping/mercatormap.py:MercatorMap.limitByMapCollision"]}
{"id": "C25", "title": "Default scale bar is the closest tabulated length", "statement": "With no bar_length, draw_scale uses a tabulated length that no other tabulated length beats in closeness to a quarter of the map width, together with that length's division count (2..6, dividing the length).", "quantifier": "every map width", "why_tests_cant": "All widths including ties.", "anchors": ["impactutils/mapping/scalebar.py:draw_scale", "impactutils/mapping/scalebar.py:LENGTHS"]}
{"id": "C26", "title": "Scale bar argument validation and override", "statement": "draw_scale accepts a bar_length/divisions pair only when both or neither are given and divisions is 2..6, and then draws a bar of that length. (When bar_length is given the code fails on an unbound local.)", "quantifier": "all combinations of arguments", "why_tests_cant": "All argument combinations.", "anchors": ["impactutils/mapping/scalebar.py:draw_scale"]}
{"id": "C27", "title": "Scale bar divisions tile the bar", "statement": "The drawn divisions are contiguous, start at the bar's left edge, end at its right edge, have equal width, alternate white/black starting with white, and tick labels are the distances at their ticks.", "quantifier": "every bar position, length and division count", "why_tests_cant": "All geometries.", "anchors": ["impactutils/mapping/scalebar.py:draw_scale"]}
{"id": "C28", "title": "Palette construction rejects inconsistent lists", "statement": "ColorPalette raises unless z0, z1, rgb0 and rgb1 have the same length. (The chained comparison rejects only when every adjacent pair of lengths differs.)", "quantifier": "all four list lengths", "why_tests_cant": "All length combinations.", "anchors": ["impactutils/colors/cpalette.py:ColorPalette.__init__"]}
{"id": "C29", "title": "Palette knots are ordered and span [0,1]", "statement": "For ascending, contiguous z0/z1 the colour-map knots start at 0, end at 1 and are non-decreasing, and each colour component is within [0,1] when the inputs are within 0..255.", "quantifier": "every consistent list of segments", "why_tests_cant": "All palettes.", "anchors": ["impactutils/colors/cpalette.py:ColorPalette.__init__"]}
{"id": "C30", "title": "Preset palettes are well formed", "statement": "Every preset has equally many lower bounds, upper bounds, start colours and end colours, with contiguous ascending ranges. (The 'topo' preset has 11 lower and 10 upper bounds.)", "quantifier": "every preset", "why_tests_cant": "Finite table; the defect is in one entry.", "anchors": ["impactutils/colors/cpalette.py"]}
{"id": "C31", "title": "getDataColor formats agree", "statement": "The 255, array and hex formats of getDataColor encode the same colour as the default format, and an unknown format raises AttributeError.", "quantifier": "every colour and every format string", "why_tests_cant": "All colours.", "anchors": ["impactutils/colors/cpalette.py:ColorPalette.getDataColor"]}
{"id": "C32", "title": "HDFContainer behaves as five independent write-once maps", "statement": "For every history of set/get/drop/list calls, HDFContainer agrees with five independent finite maps: get returns the last set value not dropped since, set of an existing name fails and changes nothing, drop removes exactly one entry, list returns exactly the present names in sorted order, and operations on one kind never affect another.", "quantifier": "every finite history of calls, all kinds, names and values", "why_tests_cant": "Histories are unbounded.", "anchors": ["impactutils/io/container.py:HDFContainer"]}
{"id": "C33", "title": "HDFContainer lookups fail cleanly", "statement": "get and drop on a missing name raise LookupError. (If nothing of that kind was ever stored the code raises KeyError from the missing group instead; KeyError is a LookupError.)", "quantifier": "every reachable container state", "why_tests_cant": "All histories.", "anchors": ["impactutils/io/container.py:HDFContainer"]}
{"id": "C34", "title": "Grouped containers return what was stored", "statement": "In the ShakeMap container base, after setX with a group path and name, getX with the same path and name returns the value, and entries stored under other paths or names are untouched.", "quantifier": "every history and every group path", "why_tests_cant": "Unbounded histories and depths.", "anchors": ["impactutils/io/smcontainers.py:HDFContainerBase"]}
{"id": "C35", "title": "Listing group paths reports exactly the stored entries", "statement": "Listing the paths below a group returns each stored leaf exactly once. (A group whose entries were all dropped is reported as if it were an entry.)", "quantifier": "every tree of groups", "why_tests_cant": "All trees.", "anchors": ["impactutils/io/smcontainers.py:HDFContainerBase._getGroupPaths"]}
{"id": "C36", "title": "Failed ShakeMap updates keep the previous value", "statement": "setStationDict/setRuptureDict/setConfig/setVersionHistory replace the stored value, and a call rejected with TypeError leaves the stored value unchanged. (setRuptureDict deletes the old value before checking the type.)", "quantifier": "every container state and argument", "why_tests_cant": "All states.", "anchors": ["impactutils/io/smcontainers.py:ShakeMapContainerBase"]}
{"id": "C37", "title": "An output container never mixes grids and points", "statement": "Over every history of calls, a ShakeMapOutputContainer holds only grid IMTs or only point IMTs, and the data type never changes once set.", "quantifier": "every finite history of setIMTGrids/setIMTArrays/get/drop calls", "why_tests_cant": "Unbounded histories.", "anchors": ["impactutils/io/smcontainers.py:ShakeMapOutputContainer"]}
{"id": "C38", "title": "A rejected setIMTArrays leaves the container unchanged", "statement": "If setIMTArrays fails its shape check the container is as before. (The data type has already been recorded, so an empty container becomes points-only.)", "quantifier": "every container state and argument", "why_tests_cant": "All states.", "anchors": ["impactutils/io/smcontainers.py:ShakeMapOutputContainer.setIMTArrays"]}
{"id": "C39", "title": "Sender factory", "statement": "get_sender_class returns the class for exactly the five documented names and raises KeyError for every other name.", "quantifier": "every string", "why_tests_cant": "All strings.", "anchors": ["impactutils/transfer/factory.py:get_sender_class"]}
{"id": "C40", "title": "Sender constructor validation", "statement": "A sender is constructed only if every required property is present, every listed file exists and the listed directory exists, and otherwise the documented exception is raised. (A missing directory raises NameError.)", "quantifier": "every property set, file list and directory", "why_tests_cant": "All inputs.", "anchors": ["impactutils/transfer/sender.py:Sender.__init__"]}
{"id": "C41", "title": "Copy sender delivers every file", "statement": "After a successful send, every file of the directory is present below the remote directory at the same relative path with the same contents, every listed file is present by name, a previous cancel marker is gone, and unrelated files are untouched.", "quantifier": "every local tree, remote tree and configuration", "why_tests_cant": "All trees.", "anchors": ["impactutils/transfer/copysender.py:CopySender.send"]}
{"id": "C42", "title": "Copy sender counts files once", "statement": "The count returned by send is the number of files delivered. (Files of the directory are counted twice.)", "quantifier": "every local tree", "why_tests_cant": "All trees.", "anchors": ["impactutils/transfer/copysender.py:CopySender.send"]}
{"id": "C43", "title": "A crash never exposes a partial remote file", "statement": "At every instant of a copy or FTP transfer the final path holds either its previous contents or the complete new contents.", "quantifier": "every crash point of every transfer", "why_tests_cant": "Crash points are a schedule quantifier.", "anchors": ["impactutils/transfer/copysender.py:CopySender._copy_file_with_path", "impactutils/transfer/ftpsender.py:FTPSender"]}
{"id": "C44", "title": "Cancel creates the marker and send removes it", "statement": "After cancel the remote directory contains the cancel marker with the given text; after a later successful send it does not; over any history the marker is present iff the last successful operation was a cancel.", "quantifier": "every history of send and cancel", "why_tests_cant": "Unbounded histories.", "anchors": ["impactutils/transfer/copysender.py:CopySender.cancel"]}
{"id": "C45", "title": "FTP directory creation reaches the requested directory", "statement": "After _create_remote_directory the server's working directory is the requested one, it exists, every directory that existed still does, and only prefixes of the path were created.", "quantifier": "every remote tree and path", "why_tests_cant": "All trees and depths.", "anchors": ["impactutils/transfer/ftpsender.py:FTPSender._create_remote_directory"]}
{"id": "C46", "title": "FTP send reports the number of files delivered", "statement": "The returned count equals the number of files stored; a file that fails is not counted and does not stop the others.", "quantifier": "every list of files and every failure pattern", "why_tests_cant": "All failure patterns.", "anchors": ["impactutils/transfer/ftpsender.py:FTPSender.send"]}
{"id": "C47", "title": "PDL command contains every value and no placeholder", "statement": "When no value contains a bracketed placeholder, the PDL command has every required value substituted in its own position and no placeholder remains.", "quantifier": "every set of property values", "why_tests_cant": "All values, in particular values that look like placeholders.", "anchors": ["impactutils/transfer/pdlsender.py:PDLSender"]}
{"id": "C48", "title": "PDL send fails on more than one file or on command failure", "statement": "send raises PDLError iff more than one local file is listed or the command exits non-zero, and otherwise returns the number of listed files plus the number of files in the directory.", "quantifier": "every configuration and exit status", "why_tests_cant": "All configurations.", "anchors": ["impactutils/transfer/pdlsender.py:PDLSender.send"]}
{"id": "C49", "title": "Every e-mail recipient gets exactly one copy", "statement": "Splitting recipients for BCC partitions them: every recipient occurs in exactly one message, in order, and no message has more than max_bcc addresses (one if max_bcc is 0). When mail servers take a message for all its addresses or not at all, send and cancel that return normally deliver exactly one copy to every recipient, and never more than one when they raise.", "quantifier": "every recipient list, every max_bcc, every failure pattern of the servers", "why_tests_cant": "needs all list lengths, batch sizes and failure patterns", "anchors": ["impactutils/transfer/emailsender.py:_split_addresses", "impactutils/transfer/emailsender.py:EmailSender.send", "impactutils/transfer/emailsender.py:EmailSender.cancel"]}
{"id": "C50", "title": "Recipient splitting terminates", "statement": "Splitting terminates for every max_bcc. (With max_bcc = 1 the batch size is zero and the loop never advances.)", "quantifier": "every recipient list and max_bcc", "why_tests_cant": "Non-termination is not observable by tests.", "anchors": ["impactutils/transfer/emailsender.py:EmailSender._split_addresses"]}
{"id": "C51", "title": "Mail server failover sends at most once", "statement": "_send_email tries servers in order, raises only if none accepted the message, and delivers the message exactly once when one does. (If a server accepts the message and then fails on quit, the next server sends it again.)", "quantifier": "every list of servers and every failure pattern", "why_tests_cant": "All failure patterns.", "anchors": ["impactutils/transfer/emailsender.py:EmailSender._send_email"]}
{"id": "C52", "title": "Associated sources correspond to associated ids", "statement": "getAssociatedSources returns one source per id in the same order, each a longest listed prefix of its id.", "quantifier": "every list of ids and sources", "why_tests_cant": "All lists, including prefixes of prefixes.", "anchors": ["impactutils/comcat/query.py:ComCatInfo.getAssociatedSources"]}
{"id": "C53", "title": "Associated ids", "statement": "getAssociatedIds returns the authoritative id and the other ids in order, and raises ValueError exactly when the authoritative id is not listed.", "quantifier": "every id list", "why_tests_cant": "All lists.", "anchors": ["impactutils/comcat/query.py:ComCatInfo.getAssociatedIds"]}
{"id": "C54", "title": "URL retry", "statement": "A 503 response is retried once after a pause. (The pause raises NameError inside the handler, so the retry never happens and the call always fails.)", "quantifier": "every sequence of server responses", "why_tests_cant": "All response sequences.", "anchors": ["impactutils/comcat/query.py:_get_url_data"]}
{"id": "C55", "title": "Shell quoting round-trips", "statement": "For every non-empty byte string, _sh_quote produces a word that a POSIX shell parses back to exactly that string as a single word.", "quantifier": "every byte string", "why_tests_cant": "All byte strings.", "anchors": ["impactutils/extern/scp/scp.py:_sh_quote"]}
{"id": "C56", "title": "Recursive scp send is a well-bracketed protocol stream", "statement": "The directory push and pop commands emitted while sending a tree recursively are balanced and interpreting the stream recreates the same tree.", "quantifier": "every directory tree", "why_tests_cant": "All trees.", "anchors": ["impactutils/extern/scp/scp.py:SCPClient._send_recursive"]}
{"id": "C57", "title": "Received files stay inside the target directory", "statement": "A remote server can only create files below the chosen local directory. (File names from the server are joined without checks.)", "quantifier": "every server message sequence", "why_tests_cant": "All adversarial servers.", "anchors": ["impactutils/extern/scp/scp.py:SCPClient._recv_file", "impactutils/extern/scp/scp.py:SCPClient._recv_pushd"]}
{"id": "C58", "title": "Vector algebra", "statement": "Vector addition, subtraction, scaling, dot and cross satisfy the vector-space laws; the cross product is orthogonal to both factors and |a x b|^2 = |a|^2|b|^2 - (a.b)^2; norm yields length one for every non-zero vector.", "quantifier": "all vectors (exact arithmetic)", "why_tests_cant": "All vectors.", "anchors": ["impactutils/vectorutils/vector.py:Vector"]}
{"id": "C59", "title": "ECEF conversion", "statement": "ecef2latlon returns longitude in (-180, 180] equal to the input longitude, and latlon2ecef is injective on longitude away from the poles.", "quantifier": "all coordinates (real arithmetic)", "why_tests_cant": "All coordinates.", "anchors": ["impactutils/vectorutils/ecef.py"]}
{"id": "C60", "title": "Polygon validation", "statement": "A polygon is accepted iff it has an odd number of points, is closed and each top point is shallower than its paired bottom point.", "quantifier": "every polygon", "why_tests_cant": "All polygons.", "anchors": ["impactutils/rupture/factory.py:_check_polygon"]}
{"id": "C61", "title": "Rotating a polygon preserves it", "statement": "_rotate_polygon of a closed polygon is closed, has the same length and the same cyclic sequence of vertices; rotating once per distinct vertex is the identity.", "quantifier": "every closed polygon", "why_tests_cant": "All polygons.", "anchors": ["impactutils/rupture/factory.py:_rotate_polygon"]}
{"id": "C62", "title": "Text ruptures are repaired when possible", "statement": "text_to_json succeeds with a valid rotation of each polygon whenever every polygon is closed and has one, and otherwise raises; any polygon it returns is a rotation of an input polygon and passes validation.", "quantifier": "every list of polygons", "why_tests_cant": "All inputs.", "anchors": ["impactutils/rupture/factory.py:text_to_json"]}
{"id": "C63", "title": "Coplanarity check rejects warped quads", "statement": "is_quad reports whether the fourth corner is within tolerance of the plane of the others. (It measures the distance of p2 to a plane through p2, so it accepts every quad.)", "quantifier": "all quads (exact arithmetic)", "why_tests_cant": "All quads.", "anchors": ["impactutils/rupture/utils.py:is_quad", "impactutils/rupture/utils.py:get_distance_to_plane"]}
{"id": "C64", "title": "Distance to a plane", "statement": "get_distance_to_plane equals |n.(x - p0)|/|n| with n the cross product of the edges whenever the three points span a plane off the origin.", "quantifier": "all points (real arithmetic)", "why_tests_cant": "All points.", "anchors": ["impactutils/rupture/utils.py:get_distance_to_plane"]}
{"id": "C65", "title": "Squared distance to a segment is the minimum over the segment", "statement": "_distance_sq_to_segment is attained at some point of the segment and is <= the squared distance to every point of it.", "quantifier": "all segments, degenerate ones included", "why_tests_cant": "All segments.", "anchors": ["impactutils/rupture/utils.py:_distance_sq_to_segment"]}
{"id": "C66", "title": "Local unit slip vectors have unit length", "statement": "get_local_unit_slip_vector returns a vector of length one for every strike, dip and rake. (A sign is missing in the east-west term, so the length varies.)", "quantifier": "all angles", "why_tests_cant": "All angles.", "anchors": ["impactutils/rupture/utils.py:get_local_unit_slip_vector"]}
{"id": "C67", "title": "Slip decomposition", "statement": "The dip-slip and strike-slip components add up to the slip vector.", "quantifier": "all angles", "why_tests_cant": "All angles.", "anchors": ["impactutils/rupture/utils.py:get_local_unit_slip_vector_DS", "impactutils/rupture/utils.py:get_local_unit_slip_vector_SS"]}
{"id": "C68", "title": "rake_to_mech", "statement": "rake_to_mech classifies by the documented 60-degree sectors centred on 0/180 (SS), -90 (NM), 90 (RS), and ALL elsewhere; sectors do not overlap, so the order of tests does not matter.", "quantifier": "every rake", "why_tests_cant": "All rakes.", "anchors": ["impactutils/rupture/utils.py:rake_to_mech"]}
{"id": "C69", "title": "setMechanism validates before storing", "statement": "setMechanism stores a dip in [0,90] and a rake in [-180,180] congruent to the request modulo 360, accepts exactly rakes in [-540,540], uses the documented defaults, and leaves the origin unchanged when it raises.", "quantifier": "every mechanism, rake and dip", "why_tests_cant": "All values.", "anchors": ["impactutils/rupture/origin.py:Origin.setMechanism"]}
{"id": "C70", "title": "Origin construction", "statement": "Origin raises KeyError iff a required key is missing, rejects out-of-range coordinates and unknown mechanisms, and every constructed origin has a known mechanism and a rake.", "quantifier": "every event dictionary", "why_tests_cant": "All dictionaries.", "anchors": ["impactutils/rupture/origin.py:Origin.__init__"]}
{"id": "C71", "title": "Quadrilaterals of a QuadRupture", "statement": "A polygon with 2m+1 points yields m-1 quads; consecutive quads share an edge, and the group index lists each polygon's number once per quad.", "quantifier": "every list of polygons", "why_tests_cant": "All polygons.", "anchors": ["impactutils/rupture/quad_rupture.py:QuadRupture._setQuadrilaterals"]}
{"id": "C72", "title": "EdgeRupture quadrilaterals follow the edges of every group", "statement": "getQuadrilaterals returns, group by group, the quads between consecutive vertices of that group. (For every group after the first it returns quads of the first.)", "quantifier": "every grouping", "why_tests_cant": "All groupings.", "anchors": ["impactutils/rupture/edge_rupture.py:EdgeRupture.getQuadrilaterals"]}
{"id": "C73", "title": "Triangle areas", "statement": "The Heron expression used for rupture area equals half the magnitude of the cross product of two sides.", "quantifier": "all triangles (real arithmetic)", "why_tests_cant": "All triangles.", "anchors": ["impactutils/rupture/edge_rupture.py:EdgeRupture.getArea"]}
{"id": "C74", "title": "GC2 segment weights are positive", "statement": "Each segment weight off the segment is positive, so T (and rx) lies between the smallest and largest per-segment distance.", "quantifier": "all ruptures of one or more traces and all sites that are not on a trace", "why_tests_cant": "All sites.", "anchors": ["impactutils/rupture/gc2.py:_computeGC2"]}
{"id": "C75", "title": "GC2 coordinates on the trace", "statement": "A site on the trace of a one-segment rupture has T = 0 and U equal to its distance along the trace. (U is reported as 0.)", "quantifier": "all sites on the trace", "why_tests_cant": "All sites.", "anchors": ["impactutils/rupture/gc2.py:_computeGC2"]}
{"id": "C76", "title": "ry0 is the distance past the ends", "statement": "ry0 is 0 for 0 <= U <= s, -U for U < 0, U - s for U > s; it is never negative.", "quantifier": "all U and s >= 0", "why_tests_cant": "All values.", "anchors": ["impactutils/rupture/gc2.py:_computeGC2"]}
{"id": "C77", "title": "get_distance", "statement": "get_distance raises NotImplementedError iff a requested measure is unknown, otherwise ConsistentLengthError iff shapes differ, and otherwise returns every requested measure.", "quantifier": "every request", "why_tests_cant": "All requests.", "anchors": ["impactutils/rupture/distance.py:get_distance"]}
{"id": "C78", "title": "Great-circle distance", "statement": "geodetic_distance is symmetric, zero from a point to itself, non-negative and at most half the circumference; azimuth lies in [0, 360).", "quantifier": "all coordinates (real arithmetic)", "why_tests_cant": "All coordinates.", "anchors": ["impactutils/extern/openquake/geodetic.py:geodetic_distance", "impactutils/extern/openquake/geodetic.py:azimuth"]}
{"id": "C79", "title": "Longitudinal extent", "statement": "get_longitudinal_extent lies in [-180, 180), is congruent to lon2 - lon1 modulo 360 and is antisymmetric except at -180.", "quantifier": "all longitudes", "why_tests_cant": "All longitudes.", "anchors": ["impactutils/extern/openquake/utils.py:get_longitudinal_extent"]}
{"id": "C80", "title": "Date-line repair of longitudes and boxes", "statement": "fix_lons_idl leaves longitudes congruent modulo 360 and, when it flags a crossing, within [0,360); fix_bounding_box_idl returns a box with min <= max for a crossing box of valid longitudes.", "quantifier": "all longitudes and boxes", "why_tests_cant": "All values.", "anchors": ["impactutils/extern/openquake/utils.py:fix_lons_idl", "impactutils/extern/openquake/utils.py:fix_bounding_box_idl"]}
{"id": "C81", "title": "Rounding to a step below one", "statement": "round_to_nearest, floor_to_nearest and ceil_to_nearest with a step below one return the nearest, greatest-below and least-above multiple of the step. (For steps that Python prints in exponent notation, such as 1e-06, the number of decimals is miscounted and they do not.)", "quantifier": "every rational value and every positive step below one (exact arithmetic)", "why_tests_cant": "Ranges over all values and steps; only steps printed in exponent notation fail.", "anchors": ["impactutils/textformat/text.py:round_to_nearest", "impactutils/textformat/text.py:floor_to_nearest", "impactutils/textformat/text.py:ceil_to_nearest"]}
{"id": "C82", "title": "%c and %x are rejected before 1900", "statement": "HistoricTime.strftime refuses a format containing the %c or %x directive for a year before 1900, and only such a format. (Only the first candidate is examined, so '%%c %c' slips through and prints the substituted year.)", "quantifier": "every date before 1900 and every format string", "why_tests_cant": "The missed cases need an escaped directive before a real one.", "anchors": ["impactutils/time/ancient_time.py:Specifier.ispresent_in", "impactutils/time/ancient_time.py:HistoricTime.strftime"]}
{"id": "C83", "title": "getTimeStr names the unit and the next smaller one", "statement": "getTimeStr prints the given unit and the next smaller unit with their counts for every documented unit and raises for an unknown unit. (For 'second' the smaller unit wraps round to 'year'.)", "quantifier": "every pair of counts and every unit", "why_tests_cant": "Ranges over all counts; the wrap-around only shows for one unit.", "anchors": ["impactutils/time/timeutils.py:ElapsedTime.getTimeStr"]}
{"id": "C84", "title": "Scale bar sits where requested and has its stated length", "statement": "With default length, draw_scale puts the bar's left edge (pos ll/ul) or right edge (pos lr/ur) at padx times the map width from that side of the map, and the bar's width in metres equals the stated length in the stated unit.", "quantifier": "every map extent, projection scale, position, padding and unit", "why_tests_cant": "Positions depend on continuous parameters; tests sample a few.", "anchors": ["impactutils/mapping/scalebar.py:draw_scale"]}
{"id": "C85", "title": "Palette colours interpolate linearly inside each range", "statement": "A data value inside range i of a contiguous palette is looked up between knots i and i+1, and interpolating there equals interpolating linearly between the range's start and end colours.", "quantifier": "every contiguous segment list, range index, data value and channel", "why_tests_cant": "Ranges over all palettes and data values.", "anchors": ["impactutils/colors/cpalette.py:ColorPalette.__init__", "impactutils/colors/cpalette.py:ColorPalette.getDataColor"]}
{"id": "C86", "title": "Palettes made from a colour map are continuous and faithful", "statement": "fromColorMap raises ConsistentLengthError for unequal lengths; for contiguous ranges the palette is continuous at every interior bound and its colour there is within 1/510 of the colour map's.", "quantifier": "every colour map and every contiguous list of ranges", "why_tests_cant": "Ranges over all colour maps.", "anchors": ["impactutils/colors/cpalette.py:ColorPalette.fromColorMap"]}
{"id": "C87", "title": "IMT data read back as stored, dropIMT removes one IMT everywhere", "statement": "In a ShakeMap output container, after setIMTGrids/setIMTArrays succeeds, getIMTGrids/getIMTArrays with the same IMT and component return exactly the arrays given, each under its own name, and other IMTs are unchanged. dropIMT removes the IMT from every component and nothing else. getComponents and getIMTs list exactly what is present.", "quantifier": "every reachable container, IMT, component and arguments", "why_tests_cant": "a test checks a few IMTs in one order; partial failures and other components need all histories", "anchors": ["impactutils/io/smcontainers.py: ShakeMapOutputContainer.setIMTGrids, getIMTGrids, setIMTArrays, getIMTArrays, dropIMT, getComponents, getIMTs"]}
{"id": "C88", "title": "Blind copies stay blind", "statement": "No recipient of a batched message can see from its copy who the other recipients are. (The Bcc field is part of the text that is sent.)", "quantifier": "every configuration and every delivered message", "why_tests_cant": "needs all recipient lists and batches", "anchors": ["impactutils/transfer/emailsender.py:EmailSender.send", "impactutils/transfer/emailsender.py:_get_encoded_message"]}
{"id": "C89", "title": "Attachments of an e-mail", "statement": "Every message carries every listed file and every file of the local directory once, or one zip file that holds each of them under its own name. (With a directory but no listed files send always raises; files with equal base names share a name in the zip file.)", "quantifier": "every configuration", "why_tests_cant": "needs all combinations of files, directories and zip names", "anchors": ["impactutils/transfer/emailsender.py:EmailSender.send"]}
{"id": "C90", "title": "Text of a cancel message", "statement": "cancel sends the text it is given, or the default text, to all recipients. (The property cancel_content overrides the argument.)", "quantifier": "every configuration and argument", "why_tests_cant": "needs all configurations and batches", "anchors": ["impactutils/transfer/emailsender.py:EmailSender.cancel"]}
{"id": "C91", "title": "Failed queries are reported", "statement": "ComCatInfo and GeoServe succeed exactly when the server's answer is a JSON document and otherwise raise Exception. (GeoServe raises TypeError for HTTP errors other than 503.)", "quantifier": "every sequence of server responses and every document", "why_tests_cant": "All response sequences and documents.", "anchors": ["impactutils/comcat/query.py:ComCatInfo.__init__", "impactutils/comcat/query.py:GeoServe._getJSONContent", "impactutils/comcat/query.py:_get_url_data"]}
{"id": "C92", "title": "A failed grid download leaves the local file alone", "statement": "getShakeGrid returns the local file name only when the file then holds exactly the downloaded text, and when it returns None the local file is as before. (After an HTTP error such as 404 the file is emptied.)", "quantifier": "every document, server and previous file content", "why_tests_cant": "All servers and file contents.", "anchors": ["impactutils/comcat/query.py:ComCatInfo.getShakeGrid"]}
{"id": "C93", "title": "Event time", "statement": "getEventParams gives the origin time to within a second, never later than the origin time. (For times before 1970 it is later.)", "quantifier": "every origin time in milliseconds", "why_tests_cant": "All times.", "anchors": ["impactutils/comcat/query.py:ComCatInfo.getEventParams"]}
{"id": "C94", "title": "GeoServe requests and regions", "statement": "The requested addresses carry the given coordinates, radius and population; the authoritative region is the first listed one and US/NA when none is listed; getRegions omits the metadata. (It does not.)", "quantifier": "every coordinate text and every region list", "why_tests_cant": "All values and lists.", "anchors": ["impactutils/comcat/query.py:GeoServe.__init__", "impactutils/comcat/query.py:GeoServe.getAuthoritative", "impactutils/comcat/query.py:GeoServe.getRegions"]}
{"id": "C95", "title": "Surface points survive the ECEF round trip", "statement": "ecef2latlon after latlon2ecef returns the latitude, longitude and depth 0 of every point on the ellipsoid that is not on the polar axis.", "quantifier": "all latitudes strictly between -90 and 90 and longitudes in (-180, 180], away from the polar axis", "why_tests_cant": "Bowring's formula is approximate off the ellipsoid; sample points cannot show that it is exact on it.", "anchors": ["impactutils/vectorutils/ecef.py:ecef2latlon", "impactutils/vectorutils/ecef.py:latlon2ecef"]}
{"id": "C96", "title": "Distance to a quadrilateral is the distance to its nearest point", "statement": "For four corners in a plane that turn the same way, _quad_distance returns the distance in km to the nearest point of the surface they span; with the horizontal option it returns 0 for points over that surface and the distance to the nearest point of it for all others.", "quantifier": "all planar convex quadrilaterals and all sites", "why_tests_cant": "The nearest point is a minimum over infinitely many points; the sign tests choosing between the plane and the edges must be right on every side.", "anchors": ["impactutils/rupture/utils.py:_quad_distance", "impactutils/rupture/utils.py:_distance_sq_to_segment"]}
{"id": "C97", "title": "Strike, normal and down-dip vectors form a frame", "statement": "For a quad whose top edge and side are not on a line, the strike, normal and down-dip vectors are unit vectors at right angles to each other, oriented along the top edge and to the side of the bottom.", "quantifier": "all quads with corners p0, p1, p3 not on a line", "why_tests_cant": "Orthogonality must hold for every orientation.", "anchors": ["impactutils/rupture/utils.py:get_quad_normal", "impactutils/rupture/utils.py:get_quad_strike_vector", "impactutils/rupture/utils.py:get_quad_down_dip_vector"]}
{"id": "C98", "title": "Width, vertical and dip of a quadrilateral", "statement": "get_quad_width is the distance in km of the fourth corner from the line of the top edge, get_vertical_vector is a unit vector pointing up, and get_quad_dip is the angle between the normal and that vertical.", "quantifier": "all quads with corners p0, p1, p3 not on a line", "why_tests_cant": "Holds for every location and orientation only by geometry.", "anchors": ["impactutils/rupture/utils.py:get_quad_width", "impactutils/rupture/utils.py:get_vertical_vector", "impactutils/rupture/utils.py:get_quad_dip"]}
{"id": "C99", "title": "Meshes cover the quadrilateral", "statement": "A quad mesh has at least two points along each edge, its outer nodes are the corners and edges of the quad, every node is a weighted mean of the corners, and cell centres are the means of the cell corners.", "quantifier": "all quads and mesh spacings", "why_tests_cant": "Must hold for every number of cells.", "anchors": ["impactutils/rupture/utils.py:get_quad_mesh"]}
{"id": "C100", "title": "Text rupture files are read as documented", "statement": "Every file of white space, references, separators and coordinate lines separated by spaces or commas is read to the references and to the vertices between the separators, longitude first in the new format and latitude first in the old one. (Commas followed by a space are refused in both formats, commas alone in the new one.)", "quantifier": "all files, all layouts of white space, both formats", "why_tests_cant": "There are unboundedly many layouts.", "anchors": ["impactutils/rupture/factory.py:text_to_json"]}
{"id": "C101", "title": "Choice of the rupture class", "statement": "rupture_from_dict_and_origin makes a QuadRupture iff in each quadrilateral the top and bottom edges are level within 50 m and the four corners are in a plane, an EdgeRupture otherwise, and raises ValueError for polygons that are not valid. (The test for a plane never fails.)", "quantifier": "all lists of polygons on the Earth", "why_tests_cant": "Every combination of depths and shapes matters.", "anchors": ["impactutils/rupture/factory.py:rupture_from_dict_and_origin", "impactutils/rupture/factory.py:is_quadrupture_class", "impactutils/rupture/factory.py:validate_json"]}
{"id": "C102", "title": "Plotting outline of a quadrilateral rupture", "statement": "lons, lats and depths of a quadrilateral rupture trace, for every group, the polygon the rupture was made from: along the top edge, back along the bottom edge, to the first point again.", "quantifier": "all ruptures made of any number of groups of any number of quadrilaterals", "why_tests_cant": "The outline is put together from corners of quadrilaterals that may each have been moved or reversed on construction.", "anchors": ["impactutils/rupture/quad_rupture.py:QuadRupture.lats", "impactutils/rupture/quad_rupture.py:QuadRupture.lons", "impactutils/rupture/quad_rupture.py:QuadRupture.depths"]}
{"id": "C103", "title": "Rupture from vertex arrays", "statement": "fromVertices without a group index makes one closed polygon for each quadrilateral. With one, it makes one closed polygon for each number, in increasing order, along the top and back along the bottom of the quadrilaterals with that number; it raises ConsistentLengthError when the index has another length.", "quantifier": "all lists of quadrilaterals and all group indices", "why_tests_cant": "The number and the arrangement of groups are unbounded.", "anchors": ["impactutils/rupture/quad_rupture.py:QuadRupture.fromVertices"]}
{"id": "C104", "title": "Distances to a rupture of quadrilaterals", "statement": "computeRrup returns the distance in km to the nearest point of all quadrilaterals. computeRjb returns 0 over the rupture moved to the surface and otherwise the distance to its nearest point.", "quantifier": "all non-empty lists of convex plane quadrilaterals and all sites within 1e16 km", "why_tests_cant": "Minimum over a surface of infinitely many points, for any number of quadrilaterals.", "anchors": ["impactutils/rupture/quad_rupture.py:QuadRupture.computeRrup", "impactutils/rupture/quad_rupture.py:QuadRupture.computeRjb"]}
{"id": "C105", "title": "Length, width, dip and depth to top", "statement": "getLength is the sum of the top-edge lengths; getWidth and getDip are means over the quadrilaterals; getDepthToTop is the depth of the shallowest corner; with no quadrilateral getWidth and getDip raise.", "quantifier": "all lists of quadrilaterals", "why_tests_cant": "real-valued inputs and any number of quadrilaterals", "anchors": ["impactutils/rupture/quad_rupture.py:QuadRupture.getLength", "impactutils/rupture/quad_rupture.py:QuadRupture.getWidth", "impactutils/rupture/quad_rupture.py:QuadRupture.getDip", "impactutils/rupture/quad_rupture.py:QuadRupture.getDepthToTop"]}
{"id": "C106", "title": "Average strike", "statement": "getStrike is the direction of the length-weighted sum of the strike directions, in (-180, 180]; quadrilaterals with a common strike give that strike up to full turns.", "quantifier": "all strikes and lengths with a positive total length", "why_tests_cant": "real-valued inputs and any number of quadrilaterals", "anchors": ["impactutils/rupture/quad_rupture.py:QuadRupture.getStrike"]}
{"id": "C107", "title": "Depth of the rupture below a point", "statement": "getDepthAtPoint over a quadrilateral is the depth of its plane there: that of the top edge at the top edge, that of the bottom edge at the bottom edge, in proportion in between.", "quantifier": "all widths, dips, depths and positions", "why_tests_cant": "Real-valued inputs; tests use shallow ruptures.", "anchors": ["impactutils/rupture/quad_rupture.py:QuadRupture.getDepthAtPoint"]}
{"id": "C108", "title": "Rupture from a trace", "statement": "fromTrace puts the lower corners at right angles to the strike, to its right, so that the down-dip edge has the given width and the given dip; without a strike the top edge gives it.", "quantifier": "all top edges, strikes, dips and widths", "why_tests_cant": "real-valued inputs and any number of quadrilaterals", "anchors": ["impactutils/rupture/quad_rupture.py:QuadRupture.fromTrace"]}
{"id": "C109", "title": "Area of a rupture", "statement": "getArea is the sum of the areas of the quadrilaterals.", "quantifier": "all lists of plane quadrilaterals", "why_tests_cant": "real-valued inputs and any number of quadrilaterals", "anchors": ["impactutils/rupture/quad_rupture.py:QuadRupture.getArea"]}
{"id": "C110", "title": "Groups of a trace", "statement": "fromTrace uses a group index like fromVertices does: one entry for each quadrilateral, an error otherwise, and no quadrilateral is lost.", "quantifier": "all lists of quadrilaterals and all group indices", "why_tests_cant": "The lengths are unbounded.", "anchors": ["impactutils/rupture/quad_rupture.py:QuadRupture.fromTrace"]}
{"id": "C111", "title": "Text file of a rupture read back", "statement": "A rupture written with writeTextFile and read back gives the same reference and the corners of every quadrilateral to four decimals.", "quantifier": "all references and all lists of quadrilaterals", "why_tests_cant": "Unbounded numbers of quadrilaterals and arbitrary references.", "anchors": ["impactutils/rupture/quad_rupture.py:QuadRupture.writeTextFile", "impactutils/rupture/factory.py:text_to_json"]}
{"id": "C112", "title": "Edge rupture from arrays", "statement": "fromArrays makes one group for each distinct group number, in increasing order; each group keeps the points with that number in their order and the pairs of upper and lower points; without a group index all points form one group.", "quantifier": "all arrays of points and all group indices of the same length", "why_tests_cant": "Unbounded arrays and arbitrary group numbers, also interleaved ones.", "anchors": ["impactutils/rupture/edge_rupture.py:EdgeRupture.fromArrays", "impactutils/rupture/edge_rupture.py:EdgeRupture.__init__"]}
{"id": "C113", "title": "Strike and dip of an edge rupture", "statement": "getStrike and getDip give the orientation of the mean plane of the rupture: the dip is the angle between the plane and the horizontal, in [0, 90], and the strike is 90 degrees to the left of the direction of dip, in [-180, 180).", "quantifier": "all lists of quadrilaterals", "why_tests_cant": "The corners are arbitrary reals and the number of quadrilaterals is unbounded.", "anchors": ["impactutils/rupture/edge_rupture.py:EdgeRupture._computeStrikeDip", "impactutils/rupture/edge_rupture.py:EdgeRupture.getDip", "impactutils/rupture/edge_rupture.py:EdgeRupture.getStrike"]}
{"id": "C114", "title": "Distances to an edge rupture", "statement": "computeRrup is the distance to the nearest point of the rupture, up to the mesh spacing: never smaller, and larger by at most one and a half spacings; computeRjb is the same for the rupture moved to depth 0, and is 0 over the rupture.", "quantifier": "all lists of quadrilaterals, all sites and all positive mesh spacings", "why_tests_cant": "Real-valued inputs; the number of nodes of the mesh is unbounded.", "anchors": ["impactutils/rupture/edge_rupture.py:EdgeRupture.computeRrup", "impactutils/rupture/edge_rupture.py:EdgeRupture.computeRjb", "impactutils/rupture/utils.py:get_quad_mesh"]}
{"id": "C115", "title": "Making an origin leaves its argument alone", "statement": "Making an Origin from an event dictionary leaves the dictionary as it was.", "quantifier": "all event dictionaries", "why_tests_cant": "All dictionaries, and both outcomes of the constructor.", "anchors": ["impactutils/rupture/origin.py:Origin.__init__"]}
{"id": "C116", "title": "Reading source.txt", "statement": "read_source skips lines that start with '#', and gives every key the value of its last line as an integer, a number or a text. Blank lines and '=' in a value are tolerated. (A blank line makes the whole call fail, and the text after a second '=' is lost.)", "quantifier": "all lists of lines", "why_tests_cant": "All texts, orders and repetitions.", "anchors": ["impactutils/rupture/origin.py:read_source"]}
{"id": "C117", "title": "Event files round trip", "statement": "write_event_file returns a message and leaves the file alone for an unknown kind of event or a time it cannot format, and otherwise writes a file from which read_event_file gets the same event, with coordinates to four decimals and depth and magnitude to one. (The kind of event and the fraction of a second are lost.)", "quantifier": "all events", "why_tests_cant": "All events and both ways of reading.", "anchors": ["impactutils/rupture/origin.py:write_event_file", "impactutils/rupture/origin.py:read_event_file"]}
{"id": "C118", "title": "Old event dates", "statement": "An event file with the date as year, month, day, hour, minute and second is read. (It never is.)", "quantifier": "all attribute lists without time", "why_tests_cant": "All files.", "anchors": ["impactutils/rupture/origin.py:read_event_file"]}
{"id": "C119", "title": "GC2 coordinates are weighted averages", "statement": "For a rupture with one trace and a site off the trace, T and U are the Spudich and Chiou averages: every segment contributes the signed distance to the right of it and the distance along the trace, weighted by the integral of the inverse squared distance over the segment; rx is T and ry is U less half the length.", "quantifier": "all traces of any number of segments and all sites off the trace", "why_tests_cant": "All geometries; a few sites cannot settle an integral identity.", "anchors": ["impactutils/rupture/gc2.py:_computeGC2"]}
{"id": "C120", "title": "GC2 of several traces", "statement": "For a rupture with several traces, every trace is drawn in the common direction and counted from the common origin, and T and U are the averages over all segments. (If the traces balance each other, no trace is turned and all of them start at zero.)", "quantifier": "all ruptures with two or more traces", "why_tests_cant": "All arrangements of traces.", "anchors": ["impactutils/rupture/gc2.py:_computeGC2"]}
{"id": "C121", "title": "Origin of U", "statement": "The origin and the direction of U for several traces come from the two most distant ends of different traces. (For traces of several quadrilaterals inner corners are compared, not the ends.)", "quantifier": "all ruptures with two or more traces", "why_tests_cant": "All arrangements of traces.", "anchors": ["impactutils/rupture/gc2.py:_computeGC2"]}
{"id": "C122", "title": "GC2 of edge ruptures with several groups", "statement": "computeGC2 of an edge rupture with several groups returns coordinates. (It always raises IndexError.)", "quantifier": "all edge ruptures with two or more groups", "why_tests_cant": "All ruptures and sites.", "anchors": ["impactutils/rupture/gc2.py:_computeGC2", "impactutils/rupture/edge_rupture.py:EdgeRupture.computeGC2"]}
{"id": "C123", "title": "ry0 of several traces", "statement": "ry0 is zero exactly when U lies between the two ends of the rupture. (The far end is taken to be that of the last trace, so the result depends on the order of traces.)", "quantifier": "all ruptures with two or more traces", "why_tests_cant": "All arrangements of traces.", "anchors": ["impactutils/rupture/gc2.py:_computeGC2"]}
{"id": "C124", "title": "Bounding box of longitudes", "statement": "get_spherical_bounding_box returns the west and east of the smallest arc that holds all longitudes if they fit into 180 degrees, across the date line or not, and raises ValueError otherwise. (Exactly 180 degrees is refused, and a collection with both -180 and 180 gets a box around the globe.)", "quantifier": "all lists of longitudes in [-180, 180]", "why_tests_cant": "All collections and the date line.", "anchors": ["impactutils/extern/openquake/utils.py:get_spherical_bounding_box"]}
{"id": "C125", "title": "Distance between points at depth", "statement": "Point.distance is a metric on places (longitude modulo 360, latitude, depth), at least the horizontal and the vertical distance, and the great-circle distance for equal depths.", "quantifier": "all pairs and triples of points", "why_tests_cant": "Metric laws range over all points.", "anchors": ["impactutils/extern/openquake/geodetic.py:distance", "impactutils/extern/openquake/point.py:Point.distance"]}
{"id": "C126", "title": "Equal points and clean_points", "statement": "Points are equal exactly if they are within a metre; clean_points keeps the first point, drops only points within a metre of one it keeps, leaves no two neighbours within a metre, and is idempotent. Equality is an equivalence. (It is not transitive.)", "quantifier": "all lists of points", "why_tests_cant": "All chains of near points.", "anchors": ["impactutils/extern/openquake/point.py:Point.__eq__", "impactutils/extern/openquake/utils.py:clean_points"]}
{"id": "C127", "title": "Spherical and Cartesian coordinates", "statement": "spherical_to_cartesian and cartesian_to_spherical are inverse to each other away from the poles and the centre, and longitudes come back in (-180, 180], latitudes in [-90, 90].", "quantifier": "all points and vectors", "why_tests_cant": "An identity over the reals.", "anchors": ["impactutils/extern/openquake/utils.py:spherical_to_cartesian", "impactutils/extern/openquake/utils.py:cartesian_to_spherical"]}
{"id": "C128", "title": "Area of a triangle and unit vectors", "statement": "triangle_area of the three edges of a closed triangle is half the length of the cross product of two of them. normalized of a non-zero vector has length one and points in the same direction.", "quantifier": "all triangles in space and all non-zero vectors", "why_tests_cant": "An identity over the reals.", "anchors": ["impactutils/extern/openquake/utils.py:triangle_area", "impactutils/extern/openquake/utils.py:normalized"]}
{"id": "C129", "title": "Range of points", "statement": "Point accepts exactly depths in (-8.848, 6371), longitudes in [-180, 180] and latitudes in [-90, 90], and raises ValueError otherwise.", "quantifier": "all coordinates", "why_tests_cant": "All boundaries.", "anchors": ["impactutils/extern/openquake/point.py:Point.__init__"]}
{"id": "C130", "title": "Orthographic projection", "statement": "The projection refuses exactly points more than 90 degrees away from its centre, returns the components along east and north at the centre, never puts points farther apart than they are, and the reverse projection gives back the point.", "quantifier": "all centres and points", "why_tests_cant": "An identity over the reals; the date line and the poles.", "anchors": ["impactutils/extern/openquake/utils.py:OrthographicProjection.__call__"]}
{"id": "C131", "title": "Asking for distances leaves the rupture as it was", "statement": "Computing distances with get_distance does not change the rupture: distances computed before and after are the same.", "quantifier": "every rupture, request and array of sites", "why_tests_cant": "a test with a fresh rupture for each call never sees the changed mesh", "anchors": ["impactutils/rupture/distance.py:get_distance"]}
{"id": "C132", "title": "Distance contexts hold what the GMPEs need", "statement": "Distance(gmpe, lon, lat, dep, rupture) raises TypeError if an object is not a GMPE; otherwise its context has exactly the four measures that are always there and every measure some GMPE requires, with the variances of rrup and rjb, as get_distance gives them; the mesh of an edge rupture is kept; the rupture is optional.", "quantifier": "every list of GMPEs, every rupture, all arrays of sites", "why_tests_cant": "there are unboundedly many combinations of GMPEs", "anchors": ["impactutils/rupture/distance.py:Distance._calcDistanceContext"]}
{"id": "C133", "title": "Epicentral and hypocentral distances", "statement": "computeRepi is the distance along the surface to the epicentre and computeRhyp the distance to the hypocentre: rhypo squared is repi squared plus the square of the difference of depths, and repi is never larger than rhypo.", "quantifier": "every hypocentre and every array of sites, at any depth", "why_tests_cant": "unit tests only compare tables of numbers for sites at the surface", "anchors": ["impactutils/rupture/base.py:Rupture.computeRhyp", "impactutils/rupture/base.py:Rupture.computeRepi"]}
{"id": "C134", "title": "Point ruptures have distances for every origin and site", "statement": "For every origin that can be constructed and every tectonic region the scaling parameters of a point rupture are set, the interpolation table covers every distance that is looked up, all results have one value for each site, and the generalized coordinates are zero.", "quantifier": "every origin, region and non-empty array of sites, also at the epicentre itself", "why_tests_cant": "a failure needs a region and mechanism, or a site at the edge of the table, that no test has", "anchors": ["impactutils/rupture/point_rupture.py:PointRupture._computeRdist", "impactutils/rupture/point_rupture.py:PointRupture.computeGC2"]}
{"id": "C135", "title": "The rake of a rupture context is a number", "statement": "The rake of getRuptureContext is that given with the origin, or the default of its mechanism, never None and never a KeyError.", "quantifier": "every origin that can be constructed", "why_tests_cant": "depends on all combinations of fields of an event", "anchors": ["impactutils/rupture/base.py:Rupture.getRuptureContext"]}
{"id": "C136", "title": "Secure transfers never expose a partial file", "statement": "During SecureSender.send, at every moment and however remote commands and uploads fail, every remote path has its old contents, or is the place of a file to be sent and has its complete new contents, or is a temporary name in the remote directory, or was a plain file at the place of a folder. (Violated for names that are special to a shell: with a backslash in the name of the remote directory a file elsewhere is removed.)", "quantifier": "every file tree, list of files, remote machine state, failure pattern of commands and uploads, and moment of interruption", "why_tests_cant": "needs every failure pattern and crash point", "anchors": ["impactutils/transfer/securesender.py:SecureSender.send", "impactutils/transfer/securesender.py:SecureSender._copy_file_with_path", "impactutils/transfer/securesender.py:SecureSender._make_remote_folder"]}
{"id": "C137", "title": "A secure send that returns has delivered everything", "statement": "When SecureSender.send returns, every listed file and every file of the local directory is at its place on the remote machine with its contents, and the count is the number of these files. (The outcome of the rename is not checked, and names are not quoted.)", "quantifier": "every file tree, list of files and remote machine", "why_tests_cant": "all trees, names and failures", "anchors": ["impactutils/transfer/securesender.py:SecureSender.send", "impactutils/transfer/securesender.py:SecureSender._copy_file_with_path", "impactutils/transfer/securesender.py:SecureSender._make_remote_folder"]}
{"id": "C138", "title": "A secure send clears an earlier cancellation", "statement": "After SecureSender.send the marker of an earlier cancel is gone, as for the other senders. (It stays.)", "quantifier": "every configuration and remote machine", "why_tests_cant": "needs every history", "anchors": ["impactutils/transfer/securesender.py:SecureSender.send", "impactutils/transfer/securesender.py:SecureSender._copy_file_with_path", "impactutils/transfer/securesender.py:SecureSender._make_remote_folder"]}
{"id": "C139", "title": "A secure send deletes nothing", "statement": "SecureSender.send deletes no remote file other than temporaries. (A plain file at the place of the remote directory is deleted.)", "quantifier": "every configuration and remote machine", "why_tests_cant": "all remote states", "anchors": ["impactutils/transfer/securesender.py:SecureSender.send", "impactutils/transfer/securesender.py:SecureSender._copy_file_with_path", "impactutils/transfer/securesender.py:SecureSender._make_remote_folder"]}
{"id": "C140", "title": "A secure cancel leaves its text", "statement": "SecureSender.cancel that returns has left the marker, and the marker holds the text given, or nothing if none was given. (Without a text it holds `None`; the text is not quoted.)", "quantifier": "every text, configuration and remote machine", "why_tests_cant": "all texts and machine states", "anchors": ["impactutils/transfer/securesender.py:SecureSender.cancel"]}
{"id": "C141", "title": "FTP send delivers everything when nothing fails", "statement": "For a remote directory given by an absolute path, a server with room for the files (no file or directory in the way) and ordinary file names: if no command fails, send returns the number of all files to be sent, and every one is on the server at its place with its complete contents.", "quantifier": "every local tree, list of files and server state with room", "why_tests_cant": "All trees, lists and server states; a test tries a few.", "anchors": ["impactutils/transfer/ftpsender.py:FTPSender.send", "impactutils/transfer/ftpsender.py:FTPSender._copy_file_with_path"]}
{"id": "C142", "title": "FTP cancel places an empty marker and touches nothing else", "statement": "After cancel returns, the remote directory contains the cancel marker; at every moment every other file of the server has its previous contents; a later send removes the marker.", "quantifier": "every server state, failure pattern and remote directory", "why_tests_cant": "Failure patterns and interleavings are unbounded.", "anchors": ["impactutils/transfer/ftpsender.py:FTPSender.cancel"]}
{"id": "C143", "title": "The middle point of two points is half way", "statement": "get_middle_point of two points lies on the great circle between them: it is at half their distance from the first point and at half their distance from the second.", "quantifier": "all pairs of points", "why_tests_cant": "The longitudes and latitudes are continuous and poles, equal points and opposite points are special cases; tests check a few pairs.", "anchors": ["impactutils/extern/openquake/utils.py: get_middle_point"]}
{"id": "C144", "title": "Points at a distance, and points within a radius", "statement": "Point.point_at returns the point reached from a point in a given azimuth after a given horizontal distance, with the depth increased by the vertical distance, and fails if this is above the surface limit; distance_to_mesh gives the distance to each mesh point in order, and closer_than marks exactly the mesh points within the radius.", "quantifier": "all points, azimuths, distances, meshes and radii", "why_tests_cant": "Continuous inputs and meshes of any size.", "anchors": ["impactutils/extern/openquake/point.py: Point.point_at, distance_to_mesh, closer_than"]}
{"id": "C145", "title": "A fitted plane is the best one", "statement": "plane_fit of more than three points returns a point and a normal of length 1, and no plane has a smaller sum of squared distances from the points; with three points or fewer it fails.", "quantifier": "all lists of points in space, all competing planes", "why_tests_cant": "The optimum is over a continuum of planes.", "anchors": ["impactutils/extern/openquake/utils.py: plane_fit"]}
{"id": "C146", "title": "A rupture built from its top edges has the strikes, dips and widths asked for", "statement": "QuadRupture.fromTrace keeps the given top corners; each lower corner lies, in the plane that touches the earth at the middle of the box of the trace, the given width times the cosine of the dip to the right of the strike, and deeper by the width times the sine of the dip, as long as that place is on this half of the earth. The strike is the one given for all quadrilaterals or for this one, or that of the top edge. Without group numbers every quadrilateral is a polygon of its own. Arrays of different lengths, a strike array of another length, an empty trace, a group index that is too long and top corners more than a quarter of the circumference from the middle raise the respective errors.", "quantifier": "all arrays of coordinates, depths, widths and dips of any length, with or without strikes and group numbers", "why_tests_cant": "Continuous inputs and arrays of any length; the projection is inverted for every point.", "anchors": ["impactutils/rupture/quad_rupture.py: QuadRupture.fromTrace", "impactutils/extern/openquake/utils.py: OrthographicProjection"]}
{"id": "C147", "title": "A rupture built from a known point goes through the known point", "statement": "QuadRupture.fromOrientation places the first top corner by going from the known point dx against the strike and dy up the plane, the second by going the length along the strike, with the top edge above the known point by the vertical part of dy, and then uses the strikes, dips and widths given. Arrays of different lengths raise ConsistentLengthError.", "quantifier": "all arrays of known points, shapes and orientations", "why_tests_cant": "Continuous inputs; the composition of rotations and great circles must be right in every quadrant.", "anchors": ["impactutils/rupture/quad_rupture.py: QuadRupture.fromOrientation"]}
{"id": "C148", "title": "A rupture dictionary is accepted exactly when it has the prescribed form", "statement": "validate_json accepts a dictionary only if it is a feature collection of one feature with a reference in its metadata and a geometry of type MultiPolygon or Point with coordinates; such a dictionary with a point is accepted, and one with polygons of numbers exactly if every polygon is closed and goes along a top edge and back below it, with ValueError otherwise.", "quantifier": "every JSON document", "why_tests_cant": "The space of documents is unbounded in depth and size.", "anchors": ["impactutils/rupture/factory.py: validate_json, _check_polygon"]}
{"id": "C149", "title": "get_rupture returns the rupture of its file or raises ValueError or IOError", "statement": "get_rupture without a file returns a point rupture, and without an Origin raises TypeError. A JSON file with a rupture dictionary gives quadrilaterals if its edges are level and an edge rupture otherwise. Another file is read as text: polygons that can be begun so that they go along the top and back below it give a rupture, ValueError is raised if one cannot and IOError if one is not closed. A file that begins with a brace and is not a rupture dictionary is never taken for text. With an Origin, the only exceptions are ValueError and IOError.", "quantifier": "every file content, every path or open file, both text formats", "why_tests_cant": "All file contents, including those between the two formats, cannot be listed.", "anchors": ["impactutils/rupture/factory.py: get_rupture, text_to_json, rupture_from_dict_and_origin"]}
{"id": "C150", "title": "scp put sends complete files, one part after the confirmation of the other", "statement": "put of files sends for every file in turn its times if they are to be kept, then the announcement with mode, size and name, then the content and a zero byte. Each part is sent only after the part before was confirmed: when k confirmations come before a refusal, silence or the end, exactly the first k parts have been sent. put returns normally exactly if all parts were confirmed, and otherwise raises SCPException. The bytes can be read in one way only. The next transfer starts a new session.", "quantifier": "every list of files, content, buffer size and every sequence of replies", "why_tests_cant": "Contents, buffer sizes and the point at which the other side fails cannot be listed.", "anchors": ["impactutils/extern/scp/scp.py: SCPClient.put, _send_files, _send_time, _recv_confirm, _open, close"]}
{"id": "C151", "title": "A recursive scp put announces exactly the tree", "statement": "put with recursive=True of a directory sends messages from which a receiver makes exactly this tree, with the mode of every file and directory and, if they are kept, the times, and waits for a confirmation after each part.", "quantifier": "every directory tree with names without line feeds, every buffer size and every sequence of replies", "why_tests_cant": "Trees and the point of a failure cannot be listed.", "anchors": ["impactutils/extern/scp/scp.py: SCPClient._send_recursive, _chdir, _send_pushd, _send_popd"]}
{"id": "C152", "title": "scp get makes exactly the tree that is sent", "statement": "Whatever tree the other side sends, and in whatever portions the content of files arrives, get returns normally and has made this tree in the local directory: directories with their modes, files with their content, times and modes, and at the end the times of the directories. It confirms each part. A single path to a local path that is no directory takes the name of the local path.", "quantifier": "every tree, every division of the content into portions, every buffer size", "why_tests_cant": "Trees and divisions cannot be listed.", "anchors": ["impactutils/extern/scp/scp.py: SCPClient.get, _recv_all, _recv_file, _recv_pushd, _recv_popd, _set_time, _set_dirtimes"]}
{"id": "C153", "title": "A file that scp get wrote is complete", "statement": "Whatever comes over the channel: if get returns normally, every file it wrote is complete. The stream has the announcement of the file directly followed by the content that was written, which has the announced size.", "quantifier": "every stream of bytes in every division, with silence and ends anywhere", "why_tests_cant": "A hostile or broken other side can send anything.", "anchors": ["impactutils/extern/scp/scp.py: SCPClient.get, _recv_all, _recv_file"]}
{"id": "C154", "title": "scp get reports failures of the connection as SCPException", "statement": "get never waits for ever: silence, the end of the stream and messages that are none of the protocol raise SCPException.", "quantifier": "every stream of bytes in every division", "why_tests_cant": "Failures can occur at any byte.", "anchors": ["impactutils/extern/scp/scp.py: SCPClient._recv_all, _recv_file", "impactutils/extern/scp/scp.py: SCPException"]}
{"id": "C155", "title": "The git facts behind a version are those of the checkout", "statement": "In a git checkout the version information is that of the checkout: the closest tag, the number of commits since it, the abbreviated and the full name of the commit, whether there are local changes and the date of the commit; the styles git-describe and git-describe-long give back exactly what git describe prints. Facts are accepted only from an output of git describe of the documented form; with any other output the version is 'unknown' with the error.", "quantifier": "every checkout: every tag name, distance, commit name, date and time zone, clean or with local changes; every answer of git", "why_tests_cant": "Tag names may contain anything git allows, including hyphens and parts that look like the description itself.", "anchors": ["impactutils/_version.py: git_pieces_from_vcs, run_command, render, render_git_describe, render_git_describe_long"]}
{"id": "C156", "title": "The version tells builds apart", "statement": "Two builds with the same version come from the same tag with the same distance and state, and (unless it is the clean tag) from the same abbreviated commit. A clean build of a tag has the tag as its version in every style but git-describe-long; local changes change the version of a commit; every documented style gives a version and any other style is a ValueError.", "quantifier": "every two checkouts and every style", "why_tests_cant": "Collisions of versions are about all pairs of checkouts.", "anchors": ["impactutils/_version.py: render_pep440, render_pep440_pre, render_pep440_post, render_pep440_old, plus_or_dot, render"]}
{"id": "C157", "title": "Versions are well-formed", "statement": "If the tags of a project are PEP 440 versions then so is every version that is computed from a checkout in one of the pep440 styles.", "quantifier": "every tag that is a PEP 440 version, every distance, commit name and state", "why_tests_cant": "The grammar has infinitely many versions, and each may be a tag.", "anchors": ["impactutils/_version.py: render_pep440, render_pep440_pre, render_pep440_post, render_pep440_old, plus_or_dot"]}
{"id": "C158", "title": "An exported archive has the version of its tag", "statement": "In an archive exported by git the version is a tag of the exported commit (without the prefix), the alphabetically first one with the prefix, with the full name of the commit, its date and no error; without such a tag it is '0+unknown' with an error. The three keywords are read back from the version file as they were written.", "quantifier": "every list of references of a commit, every prefix, commit name and date; every version file", "why_tests_cant": "The references of a commit may be any branches and tags in any number and order.", "anchors": ["impactutils/_version.py: git_versions_from_keywords, git_get_keywords"]}
{"id": "C159", "title": "The sources of a version are tried in order", "statement": "get_versions takes the version from the keywords of an exported archive, else from git, else from a parent directory named impactutils-<version> at most three levels up; if all fail the version is '0+unknown' with an error. It never raises.", "quantifier": "every place of the sources, every state of git, expanded and unexpanded keywords", "why_tests_cant": "The combinations of failing sources and directory names are unbounded.", "anchors": ["impactutils/_version.py: get_versions, versions_from_parentdir"]}
{"id": "C160", "title": "The depth of a rupture below a point", "statement": "getDepthAtPoint gives no depth (nan) exactly for a point that is neither over the rupture nor within two metres of its outline at the surface. Otherwise the depth is that of the plane of the nearest quadrilateral below the point: the depth of its top edge plus the way down dip. The lengths, widths and numbers of quadrilaterals and groups that the rupture reports agree with its quadrilaterals and polygons.", "quantifier": "every list of convex quadrilaterals, every point, every centre of the projection", "why_tests_cant": "The points over and around a rupture are a continuum, and so are the ruptures.", "anchors": ["impactutils/rupture/quad_rupture.py: getDepthAtPoint, getIndividualWidths, getIndividualTopLengths, getNumGroups, getNumQuads"]}
{"id": "C161", "title": "The slip vector of a quadrilateral shows the motion of the hanging wall", "statement": "get_quad_slip gives the unit vector, in ECEF coordinates, along which the hanging wall moves for a rake: along the strike for rake 0, against it for 180, up the dip for rake 90 and down for -90.", "quantifier": "every quadrilateral and every rake", "why_tests_cant": "Quadrilaterals and rakes are real numbers; tests compare single vectors.", "anchors": ["impactutils/rupture/utils.py: get_quad_slip, get_local_unit_slip_vector"]}
{"id": "C162", "title": "A GeoNames file gives one city for each record with a plain name", "statement": "Cities.fromGeoNames reads a tab-separated file record by record and returns, in the order of the file, one city for every record whose name is not blank and all ASCII, with the name, country, latitude, longitude, capital flag and population that stand in the record; it raises IndexError for a record with too few fields and ValueError for one whose numbers cannot be read; a downloaded file and its folder are gone after the call. limitByName keeps exactly the cities whose name matches, in order, and getCities returns three arrays that belong together entry by entry.", "quantifier": "every list of records whose fields have no tab and no newline, every number parser, every table and every name pattern", "why_tests_cant": "Files have any number of records with any text in the fields; tests read one file.", "anchors": ["impactutils/mapping/city.py: Cities.fromGeoNames, Cities.limitByName, Cities.getCities"]}
{"id": "C163", "title": "A palette file gives the palette that its table describes", "statement": "ColorPalette.fromFile returns the palette of the numbers that stand under the headings Z0, Z1, R0, G0, B0, R1, G1 and B1, in whatever order the headings stand, with comments and empty lines passed over, and with the name, NaN colour and resolution that the file sets in its variable lines, the last one counting; a name is kept as it is written.", "quantifier": "every file made of comments, variable lines, empty lines and rows of words separated by white space", "why_tests_cant": "Files have any number of lines, any spacing and any order of columns; tests read one file.", "anchors": ["impactutils/colors/cpalette.py: ColorPalette.fromFile"]}
{"id": "C164", "title": "drawCities draws exactly the cities it returns, without labels that touch", "statement": "MercatorMap.drawCities draws a label, and a dot if asked for, for exactly the cities it returns, at most sixty, at their places and with their names; no two labels on the finished map touch, no label leaves the map; every city of the table that lies on the map has a chance to be drawn, a map with one city shows it, and drawing a second time draws the same map.", "quantifier": "every table of cities, every extent and size of the map, every size of the labels", "why_tests_cant": "Tables, extents and label sizes are unbounded; tests draw one map.", "anchors": ["impactutils/mapping/mercatormap.py: MercatorMap.__init__, MercatorMap.drawCities, MercatorMap.renderRow"]}
{"id": "C165", "title": "get_closest returns a closest object", "statement": "GeographicObjects.get_closest returns the object with the least great circle distance to the given place, and that distance.", "quantifier": "every collection of objects with longitudes and latitudes, every place", "why_tests_cant": "Collections and places are unbounded, and an index may be wrong for few of them.", "anchors": ["impactutils/extern/openquake/utils.py: GeographicObjects.__init__, GeographicObjects.get_closest"]}
{"id": "C166", "title": "line_intersects_itself finds the lines and polygons that cross themselves", "statement": "line_intersects_itself is true exactly if the line of points, projected to the plane, meets itself anywhere but in the common points of consecutive edges; with closed_shape exactly if the polygon, with the edge from the last corner to the first, does so; a line whose last point repeats the first is said to intersect itself. Collections that do not fit a hemisphere raise ValueError.", "quantifier": "every list of longitudes and latitudes", "why_tests_cant": "Lines have any number of points in any position.", "anchors": ["impactutils/extern/openquake/utils.py: line_intersects_itself, OrthographicProjection, get_spherical_bounding_box"]}
{"id": "C167", "title": "The time zone files are where get_recent_timezone_data says", "statement": "get_recent_timezone_data follows the link of the page that names the archive, and raises an exception if there is none. The path it returns is that of a shape file of the archive, which is there with its contents and next to the other files of the archive; nothing else in the output directory is changed, and no temporary folder is left.", "quantifier": "every page, every archive with or without folders, every state of the disk", "why_tests_cant": "Pages and archives change with every release of the data; tests see one of them.", "anchors": ["impactutils/time/timeutils.py: get_recent_timezone_data"]}
{"id": "C168", "title": "A rupture written as a dictionary is read back", "statement": "The GeoJSON dictionary of a rupture, given to rupture_from_dict, gives a rupture of the same class with the same geometry, metadata, origin attributes, reference and rupture context.", "quantifier": "every rupture of the three classes, every origin with a HistoricTime and plain attributes, every dictionary read from JSON", "why_tests_cant": "Origins carry arbitrary attributes, which land in the metadata and may coincide with keys that select the class.", "anchors": ["impactutils/rupture/factory.py: rupture_from_dict", "impactutils/rupture/quad_rupture.py: QuadRupture.__init__", "impactutils/rupture/edge_rupture.py: EdgeRupture.__init__", "impactutils/rupture/point_rupture.py: PointRupture.__init__", "impactutils/rupture/base.py: getRuptureContext, writeGeoJson"]}
{"id": "C169", "title": "An origin from files has the values of the source file over those of the event file", "statement": "Origin.fromFile makes the origin of a dictionary in which every key has the value of the source file if it is there and else that of the event file; a moment file overrides both.", "quantifier": "every event file, source file and moment file", "why_tests_cant": "The keys of the files are free.", "anchors": ["impactutils/rupture/origin.py: Origin.fromFile"]}
{"id": "C170", "title": "A city table that is saved and loaded is the same table", "statement": "fromCSV on a file written by save gives as many cities with the same columns and the same values in them, whatever commas, quotation marks and line ends the names contain. A file without name, lat or lon is refused with KeyError.", "quantifier": "every table, every text in its cells without carriage returns", "why_tests_cant": "Names of places contain every kind of character.", "anchors": ["impactutils/mapping/city.py: Cities.save, Cities.fromCSV, Cities.getColumns"]}
{"id": "C171", "title": "City tables are sorted and projected", "statement": "sortByColumns sorts the table by the given columns and raises KeyError for columns that are not there; project adds the columns x and y with the projected coordinates and changes nothing else.", "quantifier": "every table, every list of columns, every projection", "why_tests_cant": "Tables have arbitrary columns, among them x and y.", "anchors": ["impactutils/mapping/city.py: Cities.sortByColumns, Cities.project"]}
{"id": "C172", "title": "A sender that is changed behaves like one constructed that way", "statement": "After any history of addProperty, addFiles and changeDirectory calls, with or without exceptions between them, a sender has the directory it was last changed to, each property has the value last set, the added files are among its files, and it equals a sender constructed with these. A directory that is not there raises FileNotFoundError. Other senders are not changed.", "quantifier": "every sender class, every file system, every history of calls", "why_tests_cant": "A history may be of any length and order, and a test follows only a few.", "anchors": ["impactutils/transfer/sender.py: Sender.__init__, Sender.addProperty, Sender.addFiles, Sender.changeDirectory"]}
{"id": "C173", "title": "Connections are closed", "statement": "SecureSender connects to the remote host as remote_user, or as the user of the process if there is none, with the given key. Each connection that send or cancel opens is closed when the call ends.", "quantifier": "every sender, every remote machine, every failure, any number of calls", "why_tests_cant": "The failure may come at any step of the transfer.", "anchors": ["impactutils/transfer/securesender.py: SecureSender.send, SecureSender.cancel, SecureSender._connect"]}
{"id": "C174", "title": "Vectors take part in operations with vectors only", "statement": "Sum, difference, products, distance and comparison of two vectors are those of their coordinates; comparison tells exactly whether all coordinates are equal and is symmetric. Any other operand raises TypeError, and so does multiplication by anything that is not a number. fromTuple and getTuple undo each other, and fromTuple refuses anything but three parts.", "quantifier": "every vector, every operand of any type", "why_tests_cant": "The operand may be any Python object.", "anchors": ["impactutils/vectorutils/vector.py: Vector.__add__, __sub__, __mul__, __rmul__, __eq__, cross, dot, distance, fromTuple, getTuple"]}
{"id": "C175", "title": "Pictures of ruptures show the rupture", "statement": "The wire frame has one closed line through the four corners of each quadrilateral with depths downwards. The map draws the outline of every group, and its extent is the box of all points with five degrees around. (Violated: the outlines of several groups are joined by lines that are not there, at the date line and near the poles the extent leaves the earth, and point ruptures cannot be drawn.)", "quantifier": "every rupture, every number of groups and quadrilaterals", "why_tests_cant": "Ranges over all ruptures; the tests draw a few and look at nothing.", "anchors": ["impactutils/rupture/plotrupture.py: plot_rupture_wire3d, map_rupture"]}
{"id": "C176", "title": "Rounding is right in binary arithmetic", "statement": "With doubles and integral steps, floor_to_nearest, ceil_to_nearest and round_to_nearest still return the greatest multiple below, the least above and the nearest (ties to even), population texts are those of exact numbers, and event times lose only their milliseconds. (Violated for values of 2**53 and more, for tiny values, for decimal steps below one such as floor_to_nearest(0.29, 0.01) = 0.28, and for precision of numbers from 10**23.)", "quantifier": "every double below 2**53 (2**52 for nearest) that is not tiny, every integral step up to 2**53", "why_tests_cant": "There are about 2**64 doubles; the tests try a handful.", "anchors": ["impactutils/textformat/text.py: round_to_nearest, floor_to_nearest, ceil_to_nearest, pop_round, pop_round_short, set_num_precision", "impactutils/comcat/query.py: ComCatInfo.getEventParams"]}
{"id": "C177", "title": "Containers keep what they hold in their files", "statement": "Whatever files are created, loaded, closed and loaded again, and through however many objects, the calls on the contents of a file since its creation have the results they would have on one container that stays open, and other files do not matter. Loading succeeds exactly for files that were created. A closed container answers nothing and changes nothing. Creating empties a file that is not open and refuses one that is.", "quantifier": "every program: every sequence of create, load, close, getFileName and contents calls, on any number of files and objects", "why_tests_cant": "Ranges over all histories; the tests write once, close once and load once.", "anchors": ["impactutils/io/container.py: HDFContainer.create, load, close, getFileName", "impactutils/io/smcontainers.py: HDFContainerBase.create, load, close, getFileName"]}
{"id": "C178", "title": "Senders do not disturb each other", "statement": "Any number of copy senders may work at the same time. In whatever order their steps are taken, and wherever the processes are stopped, a remote file has its previous contents or all of what one of the senders is to put there, and what a sender is to send is there once it has ended without an exception. This holds for senders to different places, and for senders that never look at the clock in the same second. (Violated: two senders of one file in the same second share a temporary name, so that the remote file can become empty and one sender raises; two senders that both make the remote directory, or both remove the cancel file, can make each other raise although their files have nothing to do with each other.)", "quantifier": "every number of senders, every interleaving of their steps, every clock, every stop", "why_tests_cant": "Depends on the schedule; the tests run one sender at a time.", "anchors": ["impactutils/transfer/copysender.py: CopySender.send, CopySender._copy_file_with_path"]}
{"id": "C179", "title": "The product client gets one argument per value", "statement": "The PDL client is started with the configured program and exactly one argument for each required, product and optional property, for the file and for the directory, and each argument has the value that was given. This holds for values without characters that are special to a shell. (Violated for others, because the command is run by a shell without quoting: a file name with a blank becomes two arguments, double quotes in a text property are lost and can cut it into several arguments, and what follows a semicolon in a value is run as a command of its own. Also, a delete message names the file and the directory although cancel is written to leave them out.)", "quantifier": "every configuration, every value, every home directory", "why_tests_cant": "All texts that a value may be; the tests use values that no shell treats specially.", "anchors": ["impactutils/transfer/pdlsender.py: PDLSender.send, PDLSender.cancel", "impactutils/io/cmd.py: get_command_output"]}
{"id": "C180", "title": "Dictionaries and lists come back as they were stored", "statement": "A dictionary or list of texts, numbers, truth values, None, lists and dictionaries (at any depth, keys are texts) that is stored in a container is read back exactly as it was, whatever characters are in the texts. Storing never writes a byte that is not a printable seven-bit character. What comes back, stored again, comes back unchanged. (Violated for other values the documentation allows: tuples come back as lists, keys that are numbers come back as texts, a number and its text as keys of one dictionary lose a value, and arrays, bytes and times raise an error.)", "quantifier": "All values of any depth and size, all texts, all histories of set, get, drop and list calls", "why_tests_cant": "Tests store a few small dictionaries; escapes, surrogate pairs, nesting and key collisions are endless", "anchors": ["impactutils/io/container.py:HDFContainer.setDictionary", "impactutils/io/container.py:HDFContainer.getDictionary", "impactutils/io/container.py:HDFContainer.setList", "impactutils/io/container.py:HDFContainer.getList"]}
{"id": "C181", "title": "A rupture written to a file is read back from the file", "statement": "A rupture that is written to a file with writeGeoJson is written in full, whatever the file held before, and reading the file gives the dictionary of the rupture, from which a rupture of the same class with the same geometry, metadata and origin is made. Only printable seven-bit characters are written, so that the encoding the file is read with makes no difference. (Violated for a point whose origin has a time of the class datetime: the call fails, and what the file held before is lost; what is left is no JSON text.)", "quantifier": "All ruptures of the three classes: all origins, metadata, polygons of any number and size, all texts, and all previous contents of the file", "why_tests_cant": "Tests write one or two ruptures to new files; what fails half way and what is destroyed then is not seen", "anchors": ["impactutils/rupture/base.py:Rupture.writeGeoJson", "impactutils/rupture/factory.py:get_rupture", "impactutils/rupture/factory.py:rupture_from_dict"]}
{"id": "C182", "title": "The documents of a ShakeMap container do not disturb each other", "statement": "After any calls on a new ShakeMap output container the configuration, the rupture, the stations, the version history and the metadata that are returned are those that were stored last; storing one changes no other, and neither do the calls for ground motion data. What was never stored raises the documented error. A rupture that is stored comes back, whatever is done with the rest of the container, as a rupture of the same class with the same geometry, metadata, origin and reference. (Violated: getVersionHistory returns an empty dictionary where AttributeError is documented, and a rupture with a datetime is refused and takes the stored rupture with it.)", "quantifier": "All histories of calls of the output container, all documents, all ruptures", "why_tests_cant": "Ranges over all histories of ten calls; tests store each document once", "anchors": ["impactutils/io/smcontainers.py:ShakeMapContainerBase", "impactutils/io/smcontainers.py:ShakeMapOutputContainer.setMetadata", "impactutils/io/smcontainers.py:ShakeMapOutputContainer.getMetadata"]}
{"id": "C183", "title": "The colour of a data value is the colour its range prescribes", "statement": "For contiguous coloured ranges getDataColor gives a value within them the colour that the ranges prescribe for it; at or below the start it gives the first colour, at or above the end the last, and to NaN the colour given for NaN. Values that differ by the resolution have different colours where the ranges' colours differ, and colours keep the order of the values. Setting vmin and vmax stretches the colours over the new limits. A logarithmic palette gives a value the colour of its logarithm. (Violated: the colour is that of a value up to one resolution away, also in the documented example; the end and the value one resolution below it share a colour; ranges out of order or with gaps are accepted and give ValueError or wrong colours.)", "quantifier": "All ranges, colours, resolutions and data values, all settings of vmin and vmax", "why_tests_cant": "Ranges over all palettes and all real data values; tests compare a few values of four palettes", "anchors": ["impactutils/colors/cpalette.py:ColorPalette.getDataColor", "impactutils/colors/cpalette.py:ColorPalette.__init__", "impactutils/colors/cpalette.py:ColorPalette.vmin", "impactutils/colors/cpalette.py:ColorPalette.vmax"]}
{"id": "C184", "title": "Equally spaced points are equally spaced on the way to the destination", "statement": "equally_spaced_points begins with the start, its consecutive points all have the same distance, equal to the spacing asked for (to a tenth of a millimetre), they lie on the great circle to the destination with depths that change evenly, and the last one is at most half the spacing away from the destination. The call succeeds whenever the depths on the way are allowed. A point made from the space coordinates of a valid point is that point. (Violated: the points need not lie between the two points: the last one can lie beyond the destination.)", "quantifier": "All pairs of points with the start not a pole, all spacings up to 20000 km, every rounding to a nearest integer", "why_tests_cant": "Ranges over all real points and spacings; tests compare one list", "anchors": ["impactutils/extern/openquake/point.py:Point.equally_spaced_points", "impactutils/extern/openquake/point.py:Point.from_vector"]}
{"id": "C185", "title": "Times, zones and directions are right in binary arithmetic", "statement": "With every float operation rounded to a double: the parts of an elapsed time are the exact ones; the hours of nautical time are the nearest multiple of 15 degrees; the UTM zone is one of the 60 and contains the longitude; the compass point is a nearest one; a raster look-up stays inside the raster and reads the cell that contains the place. (Violated for places and azimuths within about 1e-13 degrees of a boundary: the neighbouring zone, cell or compass point is used.)", "quantifier": "All double precision longitudes, latitudes and azimuths, all times Python can represent, all ordinary rasters", "why_tests_cant": "Rounding errors show only for a few of the 2^64 doubles", "anchors": ["impactutils/time/timeutils.py:_get_utm_zone", "impactutils/time/timeutils.py:ElapsedTime.getTimeElapsed", "impactutils/time/timeutils.py:LocalTime._find_time_zone", "impactutils/time/timeutils.py:TimeConversion.get_timezone_code", "impactutils/mapping/compass.py:get_compass_dir_azimuth"]}
{"id": "C186", "title": "Files can be sent and received whatever their names", "statement": "A file name of the file system, any bytes, goes over the wire unchanged, whether the file is given as bytes or as the string Python uses for it, alone or in a directory; a directory of any name can be received into; strings are sent as UTF-8 and read back as the same strings; error messages of the other side, any bytes, become a text; and what a product client printed becomes part of the message that says the product was sent. (Violated for names that are not UTF-8 and are given as strings: sending stops with a UnicodeEncodeError after the files before, with the remote directories left open, and get refuses all files; and when the product client prints bytes that are not UTF-8, send fails although the product was sent.)", "quantifier": "All byte strings as names, messages and outputs; all Python strings including lone surrogates; all lists of files and directories, all answers of the other side", "why_tests_cant": "A test has a few names, all of them ASCII; the failures are in names made on other systems", "anchors": ["impactutils/extern/scp/scp.py:asbytes", "impactutils/extern/scp/scp.py:asunicode", "impactutils/extern/scp/scp.py:SCPClient.put", "impactutils/extern/scp/scp.py:SCPClient._send_files", "impactutils/extern/scp/scp.py:SCPClient._send_recursive", "impactutils/extern/scp/scp.py:SCPClient._recv_file", "impactutils/transfer/pdlsender.py:PDLSender.send"]}
{"id": "C187", "title": "Strings come back from a container", "statement": "Over every history of calls, a string stored in a container under a free name is read back as the same string, and dictionaries and lists come back through the bytes of the file as they do through JSON; a string that cannot be stored is refused and leaves nothing behind. (Violated: strings with a zero character or with lone surrogates are refused, although a dictionary keeps a text with a zero character; and with h5py 3 the refused string with a zero character leaves an empty string under its name.)", "quantifier": "All histories of set, get, drop and list calls with plain names, all Python strings, all JSON values", "why_tests_cant": "A test stores one short ASCII string", "anchors": ["impactutils/io/container.py:HDFContainer.setString", "impactutils/io/container.py:HDFContainer.getString", "impactutils/io/container.py:HDFContainer.setDictionary", "impactutils/io/container.py:HDFContainer.getDictionary", "impactutils/io/smcontainers.py:HDFContainerBase.setString", "impactutils/io/smcontainers.py:HDFContainerBase.getString"]}
{"id": "C188", "title": "Ruptures do not influence each other", "statement": "Whatever a caller does after making a rupture - make other ruptures from the same dictionary or with the same origin, change the dictionary - its class, geometry, reference and origin and the dictionary it writes stay what they were when it was made; making a rupture does not change the dictionary it is made from. (True of rupture_from_dict and PointRupture. Violated by QuadRupture, EdgeRupture and rupture_from_dict_and_origin: they write the origin into the caller's dictionary and keep that dictionary, so that a second rupture made from it changes what the first one writes, even its class; a QuadRupture that cannot be made leaves the origin in the dictionary. A rupture keeps writing the old mechanism after setMechanism on its origin.)", "quantifier": "All histories of making dictionaries, origins and ruptures and of changing dictionaries and origins, in any order and number", "why_tests_cant": "What goes wrong depends on which objects are shared and on the order of calls long after the constructor returned.", "anchors": ["impactutils/rupture/quad_rupture.py:QuadRupture.__init__", "impactutils/rupture/edge_rupture.py:EdgeRupture.__init__", "impactutils/rupture/point_rupture.py:PointRupture.__init__", "impactutils/rupture/factory.py:rupture_from_dict", "impactutils/rupture/factory.py:rupture_from_dict_and_origin", "impactutils/rupture/base.py:Rupture.writeGeoJson", "impactutils/rupture/base.py:Rupture.getOrigin"]}
{"id": "C189", "title": "A client may be used for many transfers", "statement": "After any number of put and get calls on one SCPClient the next call has the same effects - calls on the local files, bytes sent, result - as on a new client, on a session of its own; and after a with statement around any transfers, whatever came of them, every session that was opened has been closed exactly once. (The with statement always keeps its part. Transfers that returned normally leave nothing behind, if the server announced no time without its file. Violated after a failure, also if the client is closed then: the time announced before it is given to the first file of the next get, the times of its directories are set by the next get, and the next transfer runs its command on the session of the failed one.)", "quantifier": "All histories of transfers of one client, all servers, trees, chunkings and outcomes", "why_tests_cant": "What is left over shows only in the transfer after a failure at a particular point of the stream.", "anchors": ["impactutils/extern/scp/scp.py:SCPClient.__init__", "impactutils/extern/scp/scp.py:SCPClient.__enter__", "impactutils/extern/scp/scp.py:SCPClient.__exit__", "impactutils/extern/scp/scp.py:SCPClient.put", "impactutils/extern/scp/scp.py:SCPClient.get", "impactutils/extern/scp/scp.py:SCPClient._open", "impactutils/extern/scp/scp.py:SCPClient.close", "impactutils/extern/scp/scp.py:SCPClient._set_time", "impactutils/extern/scp/scp.py:SCPClient._set_dirtimes"]}
{"id": "C190", "title": "Amounts of money are shown right in binary arithmetic", "statement": "The text that dollar_round returns for a whole amount is a dollar sign, a decimal numeral and the unit for the size of the amount; the number the numeral stands for has at most the wanted number of significant digits and differs from the amount in this unit by at most half a unit of the last digit, although the program divides, rounds and prints doubles; halves are rounded the same way every time and the unit is the one for the amount shown. (True for amounts up to 10**15 and up to 15 digits, except for the last two clauses: 1150 is shown as $1.1K and 1350 as $1.4K, and all amounts from 995,001 to 999,999 as $1000.0K.)", "quantifier": "All whole amounts up to 10**15, all numbers of digits up to 15, both modes", "why_tests_cant": "The doubles for which a quotient, a rounding and the shortest printing go different ways are scattered over all magnitudes.", "anchors": ["impactutils/textformat/text.py:dollar_round", "impactutils/textformat/text.py:set_num_precision"]}
{"id": "C191", "title": "Colours in binary arithmetic", "statement": "With every operation rounded as floating point does, the colour of a data value is, to within one part in 2^50 in each channel, the colour the ranges prescribe for a value within one table entry of it; at and beyond the ends it is exactly the end colour; where the colours rise along the ranges they rise with the value; ranges of one integer colour come back as exactly those integers, and the population preset gives every number of people the colour of its own range. (Violated in the last bit: the order by one unit in the last place, integers by one, and values one resolution apart can share a colour.)", "quantifier": "All palettes of contiguous ranges with double limits and at most 2^40 entries, all double values; all numbers of people below 50000 for the preset", "why_tests_cant": "Rounding errors depend on every bit of the limits and values; a test of a few values cannot see where an index or a channel falls below an integer.", "anchors": ["impactutils/colors/cpalette.py:ColorPalette.__init__", "impactutils/colors/cpalette.py:ColorPalette.getDataColor", "impactutils/colors/cpalette.py:ColorPalette.fromPreset"]}
{"id": "C192", "title": "Query objects keep reporting what was downloaded", "statement": "Whatever methods a program has called and whatever it did with the lists and dictionaries it was given, ComCatInfo reports what the downloaded document says: place, tsunami flag, address, grid address (None if there is none), coordinates, magnitude, the second of the origin time, ids and sources; GeoServe reports the places, the regions and the first authoritative region of its documents. (Violated for GeoServe: getRegions and getPlaces hand out the stored documents, so clearing a list they returned changes what getAuthoritative and getPlaces report.)", "quantifier": "All documents whose named fields hold numbers, texts or null; all histories of calls and of changes to reachable lists and dictionaries", "why_tests_cant": "A test makes one call or two; aliasing shows only after some sequence of calls and changes, and there is no bound on these.", "anchors": ["impactutils/comcat/query.py:ComCatInfo", "impactutils/comcat/query.py:GeoServe"]}
{"id": "C193", "title": "City tables keep whole rows and stay apart", "statement": "limitByBounds, limitByRadius, limitByPopulation and limitByName return exactly the cities that meet the condition, in their order, with their labels and with the values in every column of the user's table; and no Cities object changes because the data frame it was made from, a frame it returned or another Cities object changes. (Violated: writing into an array from getCities changes the object, and limitByRadius deletes a column of the user that is called 'dist'.)", "quantifier": "All tables with distinct column names and columns of equal lengths, all values in them, also missing ones, all limits; all programs that make, change and look at data frames and Cities objects", "why_tests_cant": "A test looks at a few columns of one table; the property speaks of all columns and of all histories of changes through other references.", "anchors": ["impactutils/mapping/city.py:Cities.__init__", "impactutils/mapping/city.py:Cities.limitByBounds", "impactutils/mapping/city.py:Cities.limitByRadius", "impactutils/mapping/city.py:Cities.limitByPopulation", "impactutils/mapping/city.py:Cities.limitByName", "impactutils/mapping/city.py:Cities.getDataFrame", "impactutils/mapping/city.py:Cities.getCities", "impactutils/mapping/city.py:Cities.project"]}
{"id": "C194", "title": "Event times survive being written and read", "statement": "The text of an event's time in a rupture file is read back as the same time to the microsecond, in an event file as the same time without the fraction of the second, and on PDL's command line it stands for the time cut off after the millisecond; every text that is no time of the calendar in one of the two forms is refused. (Violated: times before the year 1000 are written but refused when read, and times in 300, 700, 1100 and 1500 cannot be written.)", "quantifier": "All times of the calendar, to the microsecond; all texts", "why_tests_cant": "A test reads a few recent times; the property speaks of every time in 9999 years and of every text.", "anchors": ["impactutils/time/ancient_time.py:HistoricTime.strftime", "impactutils/rupture/constants.py:TIMEFMT", "impactutils/rupture/constants.py:ALT_TIMEFMT", "impactutils/rupture/factory.py:rupture_from_dict", "impactutils/rupture/origin.py:write_event_file", "impactutils/rupture/origin.py:read_event_file", "impactutils/transfer/pdlsender.py:PDLSender._replace_optional_properties"]}
{"id": "C195", "title": "Vectors with floats obey the laws of vectors and are right to a known error", "statement": "Sums, differences and multiples of vectors are the doubles nearest to the exact ones; dot and cross products, lengths, distances and unit vectors are within stated bounds of the exact values, and exact for whole coordinates; sums and dot products commute, cross products and differences change their sign with the order, a vector's cross product with itself is zero, distances are symmetric, and zero only for equal points. (Violated: lengths of very small vectors are zero; sums are not associative, factors do not distribute, parallel vectors may have a cross product, and unit vectors need not have length one.)", "quantifier": "All vectors of doubles, for every order in which the library adds up and for every square function that is right to one unit in the last place", "why_tests_cant": "A test compares a few vectors within a tolerance; the bound for every vector of doubles is a matter of proof.", "anchors": ["impactutils/vectorutils/vector.py:Vector.__add__", "impactutils/vectorutils/vector.py:Vector.__sub__", "impactutils/vectorutils/vector.py:Vector.__mul__", "impactutils/vectorutils/vector.py:Vector.cross", "impactutils/vectorutils/vector.py:Vector.dot", "impactutils/vectorutils/vector.py:Vector.mag", "impactutils/vectorutils/vector.py:Vector.norm", "impactutils/vectorutils/vector.py:Vector.distance"]}
{"id": "C196", "title": "Maps draw on their own figures only", "statement": "Whatever maps and figures of its own a program makes, in any order and with exceptions in between: every map has a figure of its own, on it stand exactly the labels and dots of the cities that its own drawCities calls returned and what the program itself put there; the program's own figures hold only what the program put there; a map just made or drawn has the current axes; getFonts returns the installed fonts in order. An extent that cannot be set in geographic coordinates is set in projected ones, an unknown font is a KeyError, getAxesClone returns the hidden axes, and after an exception the current axes are visible ones. (Violated: the last sentence fails in all its parts.)", "quantifier": "All programs of any length with any number of maps and figures, all tables, bounds and fonts, whatever the libraries' set_extent and label sizes are", "why_tests_cant": "A test makes one map; the property speaks of every interleaving of calls on matplotlib's global state.", "anchors": ["impactutils/mapping/mercatormap.py:MercatorMap.__init__", "impactutils/mapping/mercatormap.py:MercatorMap.drawCities", "impactutils/mapping/mercatormap.py:MercatorMap.getAxesClone", "impactutils/mapping/mercatormap.py:MercatorMap.getFonts"]}
{"id": "C197", "title": "Gridded city tables are right in binary arithmetic", "statement": "With the floats of numpy, limitByGrid takes the most populous cities of each cell of the grid: a city is never reported twice and never left out when there is room for it, except on the western and southern edge (C23). (Violated: the limits of the cells are rounded differently from the two sides, so that a city on the eastern edge or in a gap between two cells is lost, and one where two cells overlap is reported twice. Proved: this can happen only within 2^-40 degrees of a border; with at most two columns and rows, as by default, nothing is repeated and only cities within 2^-40 degrees of the eastern or northern edge can be lost; for coordinates that are multiples of 2^-20 and grids of powers of two the result is the exact one.)", "quantifier": "All tables with double coordinates of at most 360 degrees, all grids of up to 2^40 columns and rows, all limits and all sorts with any treatment of ties", "why_tests_cant": "Whether a city is lost depends on the last bit of coordinates and of the extent of the table; a test with round coordinates never sees it.", "anchors": ["impactutils/mapping/city.py:Cities.limitByGrid", "impactutils/mapping/city.py:Cities.limitByBounds"]}
{"id": "C198", "title": "Numbers in text files are read as the numbers that are written there", "statement": "The numbers of GeoNames files, rupture text files, event.xml and source.txt are the floats nearest to the decimal numbers in the text, whatever their sign, blanks and power of ten; a text that is not a number is refused, or stays a text in source.txt; and numbers that the library wrote are read back: floats and whole numbers exactly, numbers written with four decimals to half a unit of the last one and a rounding. (Violated: digits with an underscore between them, digits with an e between them and the words nan, inf and infinity are numbers also, so that an event code 2019_10 in source.txt is read as 201910 and 12e3 as 12000.0.)", "quantifier": "all texts in Latin-1, all floats and whole numbers, all ruptures with coordinates of at most 8191 and all events from the year 1000 on", "why_tests_cant": "Tests read a few files with ordinary numbers; which of all texts are numbers, and that the float is the nearest one for every number of digits and every exponent, cannot be tried out.", "anchors": ["impactutils/mapping/city.py:Cities.fromGeoNames", "impactutils/rupture/factory.py:text_to_json", "impactutils/rupture/origin.py:read_event_file", "impactutils/rupture/origin.py:read_source", "impactutils/rupture/quad_rupture.py:QuadRupture.writeTextFile"]}
{"id": "C199", "title": "The arrays of a rupture hold its points", "statement": "getRuptureAsArrays and getDeps hold the vertices of the polygons, group by group with nan at the end of each, and determine the rupture; lons, lats and depths hold the outline of every group in the same way; getDepthToTop of an edge rupture is the depth of the highest point of its top edges, on the vertices or between them. (Violated: a nan among the longitudes splits a group; outlines of reversed quadrilaterals are those of C102; the depth to the top of an edge rupture whose bottom edge is higher than its top edge is not that of its highest point.)", "quantifier": "all lists of polygons with any number of points, all edge ruptures, all points on the edges", "why_tests_cant": "Tests compare the arrays of a few ruptures; that the groups can be told apart again, and that no point is lost, has to hold for every number of groups and points.", "anchors": ["impactutils/rupture/quad_rupture.py:QuadRupture.getRuptureAsArrays", "impactutils/rupture/quad_rupture.py:QuadRupture.getDeps", "impactutils/rupture/quad_rupture.py:QuadRupture.lons", "impactutils/rupture/edge_rupture.py:EdgeRupture.depths", "impactutils/rupture/edge_rupture.py:EdgeRupture.getDepthToTop"]}
{"id": "C200", "title": "Great-circle distances and azimuths are right in binary arithmetic", "statement": "For latitudes from -90 to 90 and longitudes from -180 to 180, geodetic_distance computed with doubles is never negative and differs from the great-circle distance by a small multiple of the error u of sin, cos, squares and arcsin: 1300000 u km up to 10000 km, 240000 sqrt(u) km everywhere; it is 0 for a point and itself, the same in both directions, and a number for points less than 20014 km apart. distance with depths adds an error of 10 u of the distance. azimuth is from 0 up to but not including 360 and points to within 200 u earth radii of the second point. (Violated: for points on opposite sides of the earth an accurate library can make the distance nan.)", "quantifier": "all pairs of points, all libraries right to u, for u from 2^-53 to 2^-40", "why_tests_cant": "Tests compare a few distances to some digits; the error of sums, roots and arc sines grows near the antipodes, and only a bound for all points shows where a distance can be trusted.", "anchors": ["impactutils/extern/openquake/geodetic.py:geodetic_distance", "impactutils/extern/openquake/geodetic.py:distance", "impactutils/extern/openquake/geodetic.py:azimuth", "impactutils/extern/openquake/geodetic.py:_prepare_coords"]}
{"id": "C201", "title": "getBounds is the smallest box around the cities", "statement": "Cities.getBounds returns the smallest box with all the cities, with a city on each edge, and nan only for a table without cities; the bounds of a part of the cities lie within those of all; limiting a table to its own bounds keeps every city. (Violated: limitByBounds leaves out the cities on the western and the southern edge, so that every table loses at least one city.)", "quantifier": "all tables of cities", "why_tests_cant": "Tests look at one table; a smallest box, and that limiting by it loses nothing, are statements about every table.", "anchors": ["impactutils/mapping/city.py:Cities.getBounds", "impactutils/mapping/city.py:Cities.limitByBounds"]}
{"id": "C202", "title": "MapCities behaves like a value and lists the fonts known when it was made", "statement": "Every MapCities lists the fonts matplotlib knew when it was made, each as often as it is known, in alphabetical order, whatever is done later; its limitBy methods return MapCities with the fonts known at that moment, those of Cities return Cities; changing a list one object returned changes no other object; limitByMapCollision removes the cities whose labels collide with those of larger ones. (Violated: getFontList returns the object's own list, so that changing it changes what the object returns next; limitByMapCollision always raises NotImplementedError.)", "quantifier": "all programs that make, limit and look at tables of cities of both classes while fonts are added, all tables and all lists of fonts", "why_tests_cant": "Tests make one object and look at its list once; sharing shows only in programs with several objects and changes between the calls.", "anchors": ["impactutils/mapping/mapcity.py:MapCities", "impactutils/mapping/city.py:Cities"]}
{"id": "C203", "title": "Earth-centred coordinates are right in binary arithmetic", "statement": "For latitudes from -90 to 90, longitudes from -180 to 180 and depths up to 1000 km above or below, each coordinate latlon2ecef computes with doubles differs by at most 200000000 u metres from that of the point at this depth below the point of the WGS84 ellipsoid whose normal has this latitude and longitude, where u is the error of sin and cos (a fifth of a millimetre for u = 2^-40). Points mirrored at the equator or at the meridian of Greenwich get exactly mirrored coordinates; points of the equator get z = 0 and points of the meridian y = 0 exactly.", "quantifier": "all points in these ranges, all libraries right to u, for u from 2^-53 to 2^-40", "why_tests_cant": "Tests compare a few points with a tolerance; the error bound and the symmetries are about every double.", "anchors": ["impactutils/vectorutils/ecef.py:latlon2ecef"]}
{"id": "C204", "title": "Earth-centred coordinates of points at depth convert back", "statement": "For a point up to 1000 km below or above the WGS84 ellipsoid, not on the axis of the Earth, ecef2latlon gives back from the coordinates of latlon2ecef exactly its longitude, its latitude within 3e-13 dep^2 degrees and, at least one metre of x or y away from the axis, its depth within 6e-11 dep^2 kilometres (dep in km); nearer to the axis the depth is right to 1e-9 km. The same holds for every point that the normal of the ellipsoid places at this latitude, longitude and depth.", "quantifier": "all latitudes strictly between -90 and 90, longitudes above -180 up to 180, depths with |dep| <= 1000", "why_tests_cant": "Tests convert a few points back and forth; the bound on the error of the closed formula is about all points.", "anchors": ["impactutils/vectorutils/ecef.py:ecef2latlon", "impactutils/vectorutils/ecef.py:latlon2ecef"]}
{"id": "C205", "title": "Lengths of ruptures are right in binary arithmetic", "statement": "With doubles, get_quad_length is right to 1000000 u kilometres of the straight line between the first two corners placed over the WGS84 ellipsoid (a millimetre for u = 2^-40), and QuadRupture.getLength of n quadrilaterals to n (1000000 + 30000 n) u kilometres of the sum, where u is the error of the library's sin, cos and pow. Reversing a quadrilateral, or mirroring it at the equator, leaves its length exactly the same; equal corners have length 0; the length of a rupture is never negative and never shrinks when quadrilaterals are appended; getIndividualTopLengths lists exactly the lengths of the quadrilaterals.", "quantifier": "all quadrilaterals with latitudes up to 90, longitudes up to 180 and depths up to 1000 km, all lists of up to a million of them, all libraries right to u, for u from 2^-53 to 2^-40", "why_tests_cant": "Tests compare a few lengths with a tolerance; the error bound grows with the list and holds for all doubles, and the equalities are exact.", "anchors": ["impactutils/rupture/utils.py:get_quad_length", "impactutils/rupture/quad_rupture.py:QuadRupture.getLength", "impactutils/rupture/quad_rupture.py:QuadRupture.getIndividualTopLengths", "impactutils/rupture/utils.py:reverse_quad"]}
{"id": "C206", "title": "Reading the names of required properties changes nothing", "statement": "getRequiredProperties and getOptionalProperties tell which properties a sender of a class needs and knows; whatever a program does with the lists they return, a sender can be constructed exactly if all documented required properties are given.", "quantifier": "all histories of constructions, calls of the two methods, copies of lists, and appends to and removals from lists, for all five sender classes", "why_tests_cant": "The lists are shared by the class; only the statement about all histories shows which programs disturb later constructions.", "anchors": ["impactutils/transfer/sender.py:Sender.getRequiredProperties", "impactutils/transfer/sender.py:Sender.getOptionalProperties", "impactutils/transfer/sender.py:Sender.__init__"]}
{"id": "C207", "title": "Distances to edge ruptures are right in binary arithmetic", "statement": "The rupture distance and the Joyner-Boore distance of an edge rupture, computed with rounded operations, are the distance to some point of one of its quadrilaterals up to a few nanometres per kilometre, are at most the distance to any point of a parallelogram plus one and a half times the mesh spacing, are never negative, do not grow when quadrilaterals are added, and are zero at the first corner of each quadrilateral.", "quantifier": "all ruptures of any number of quadrilaterals with corners on or near the earth's surface, all sites, all mesh spacings from a metre to a thousand kilometres, all libraries of elementary functions with small errors, all ways to sum a mean with small error", "why_tests_cant": "The error of rounded operations depends on all corners, the site, the spacing and the library; a test compares a handful of sites with stored numbers.", "anchors": ["impactutils/rupture/edge_rupture.py:EdgeRupture.computeRrup", "impactutils/rupture/edge_rupture.py:EdgeRupture.computeRjb", "impactutils/rupture/utils.py:get_quad_mesh"]}
{"id": "C208", "title": "Distances to segments are right in binary arithmetic", "statement": "The squared distance from a site to a side of a rupture, computed with rounded operations, has a root that is the distance to some point of the segment, and at most the distance to any point of the segment, up to two hundred rounding errors of the coordinates, also where the choice between the end points and the inner point falls on the wrong side; it is never negative, and for a segment of length zero it is the square of the distance to the point.", "quantifier": "all segments with coordinates below any bound from one metre up, all ways to sum three numbers with small error", "why_tests_cant": "The rounding errors of the projection decide which branch is taken, and they depend on all six coordinates; a test sees a handful of segments far from the switches.", "anchors": ["impactutils/rupture/utils.py:_distance_sq_to_segment", "impactutils/rupture/utils.py:_quad_distance"]}
{"id": "C209", "title": "Distances to quadrilateral ruptures are right in binary arithmetic", "statement": "The rupture distance of a quadrilateral rupture, computed with rounded operations from corners that are nearly flat, is a number and is the true distance to the surface up to an error bound that is proportional to the error of one operation plus the lack of flatness, even where rounding makes the test for sites over the surface wrong. The Joyner-Boore distance is right in the same sense, is zero for all sites that are over the surface by a small margin, and is zero only for sites that are over the surface or very near its edge.", "quantifier": "all ruptures of one or more quadrilaterals with room for a disc, all sites, all libraries of elementary functions and all ways to sum three numbers with small errors, all signs of sums that are zero", "why_tests_cant": "Whether rounding flips one of the four signs, and what that does to the distance, depends on all corners and the site; a test compares a handful of sites with stored numbers.", "anchors": ["impactutils/rupture/quad_rupture.py:QuadRupture.computeRrup", "impactutils/rupture/quad_rupture.py:QuadRupture.computeRjb", "impactutils/rupture/utils.py:_quad_distance", "impactutils/rupture/utils.py:_distance_sq_to_segment"]}
{"id": "C210", "title": "An interrupted copy can be repeated", "statement": "However many calls of send of a copy sender were cut off at whatever moment, raised or returned before, every path has its old contents or the complete contents of a file to be sent there, and the next call of send returns: then all files are delivered with their contents, the cancel marker is gone and everything else is as it was before the first call, apart from files with temporary names in the remote directory.", "quantifier": "all file systems with room for the files, all ordinary configurations, all numbers of earlier calls, all moments at which each of them was cut off, all time stamps, listing orders and piece sizes of each call", "why_tests_cant": "The states a crash can leave behind, over any number of repeated calls, cannot be enumerated; a test repeats one call after one failure.", "anchors": ["impactutils/transfer/copysender.py:CopySender.send", "impactutils/transfer/copysender.py:CopySender._copy_file_with_path", "impactutils/transfer/sender.py:Sender.getAllLocalFiles"]}
{"id": "C211", "title": "An interrupted FTP transfer can be repeated", "statement": "However many FTP transfers were made before, whichever of their commands failed, and at whatever moment they were cut off, every path on the server that does not end with .tmp has its old contents or the complete contents of a file to be delivered there; and a further transfer in which no command fails returns the number of all files, delivers every one of them, and leaves everything else that does not end with .tmp as it was before the first transfer.", "quantifier": "all states of the server with room for the files, all ordinary configurations with an absolute remote directory, all numbers of earlier transfers, all failure patterns and moments of interruption of each", "why_tests_cant": "What a chain of transfers with lost connections leaves on the server cannot be enumerated; a test against a server sees runs without failures.", "anchors": ["impactutils/transfer/ftpsender.py:FTPSender.send", "impactutils/transfer/ftpsender.py:FTPSender._create_remote_directory", "impactutils/transfer/ftpsender.py:FTPSender._copy_file_with_path"]}
{"id": "C212", "title": "An interrupted secure transfer can be repeated", "statement": "However many secure transfers were made before, whichever of their remote commands and uploads failed, and at whatever moment they were cut off, every remote path has its old contents, or the complete contents of a file to be sent there, or is a temporary name in the remote directory, or was a plain file at the place of a folder; and a further transfer in which every command and upload that can succeed does returns the number of all files, delivers every one of them, and leaves everything else as it was before the first transfer, apart from temporary names in the remote directory and plain files at the places of folders.", "quantifier": "all states of a remote Unix machine with room for the files, all configurations with an absolute remote directory and names that are plain for a shell, all numbers of earlier transfers, all failure patterns and moments of interruption of each", "why_tests_cant": "What a chain of failing transfers leaves on the remote machine cannot be enumerated; a test against a machine sees runs without failures.", "anchors": ["impactutils/transfer/securesender.py:SecureSender.send", "impactutils/transfer/securesender.py:SecureSender._copy_file_with_path", "impactutils/transfer/securesender.py:SecureSender._make_remote_folder"]}
{"id": "C213", "title": "The text of a point tells where it is", "statement": "From the text of a Point (str and repr) float reads its latitude and longitude to half a millionth of a degree and its depth to half a ten-thousandth of a kilometre; two points with the same text are equal. From its well-known text (wkt2d) float reads the longitude and the latitude exactly, so that points with the same well-known text have the same longitude and latitude.", "quantifier": "all pairs of points with floats as coordinates, with signed zeros", "why_tests_cant": "All floats in the ranges, and all pairs of them; a test has two texts.", "anchors": ["impactutils/extern/openquake/point.py:Point.__str__", "impactutils/extern/openquake/point.py:Point.__repr__", "impactutils/extern/openquake/point.py:Point.wkt2d", "impactutils/extern/openquake/point.py:Point.__eq__"]}
{"id": "C214", "title": "A tree that one scp client sends is made by another one that receives it", "statement": "The bytes that put with recursive=True sends for a directory tree are such that every get which receives them, in whatever portions the contents arrive, returns after having made exactly this tree: the same files and directories in the same places, with the same contents and permissions and, if asked for, with the times in whole seconds; and it sends the confirmations that put waits for.", "quantifier": "all directory trees with names that a line of the protocol can carry (no line feed, at most 255 bytes, no blank at the end), all modes and times, all sizes of the buffers on both sides, all portions in which contents arrive", "why_tests_cant": "Sending and receiving are tested apart, against a server; all trees and all portions cannot be enumerated.", "anchors": ["impactutils/extern/scp/scp.py:SCPClient.put", "impactutils/extern/scp/scp.py:SCPClient.get", "impactutils/extern/scp/scp.py:SCPClient._send_recursive", "impactutils/extern/scp/scp.py:SCPClient._recv_all"]}
{"id": "C215", "title": "A rupture file whose writing was interrupted is refused", "statement": "When the process stops, or json fails, while writeGeoJson writes a rupture, get_rupture raises ValueError or IOError for the file that is left unless it is the old file or the complete new one: an incomplete file is never taken for a rupture.", "quantifier": "all ruptures, all old files, all points at which writing stops, both text formats", "why_tests_cant": "There is one crash point for each character of each rupture file, and the reader tries two formats.", "anchors": ["impactutils/rupture/base.py:Rupture.writeGeoJson", "impactutils/rupture/factory.py:get_rupture"]}
{"id": "C216", "title": "A city table whose saving was interrupted is refused", "statement": "When the process stops while save writes a table of cities, fromCSV raises an error for the file that is left, unless it is the complete one: cities are not lost, and no city has other values than those that were saved.", "quantifier": "all tables, all texts in their cells without carriage returns, all points at which writing stops", "why_tests_cant": "There is one crash point for each character of each file, within and between quotation marks.", "anchors": ["impactutils/mapping/city.py:Cities.save", "impactutils/mapping/city.py:Cities.fromCSV"]}
{"id": "C217", "title": "Event files keep every text, or are not written", "statement": "write_event_file returns a message, and leaves the file as it was, exactly when the kind of event is neither ACTUAL nor SCENARIO, the time cannot be formatted or a text contains a character that XML does not allow. Otherwise read_event_file gives the texts of the event back character by character, whatever quotation marks, ampersands, angle brackets, line ends, tabs and letters of any alphabet they contain, and the file consists of seven-bit characters.", "quantifier": "all events, all texts in them, all previous contents of the file", "why_tests_cant": "Texts are unbounded, and each kind of special character can be at each place of each text; tests use plain names.", "anchors": ["impactutils/rupture/origin.py:write_event_file", "impactutils/rupture/origin.py:read_event_file"]}
{"id": "C218", "title": "An event file whose writing was interrupted is not read as another event", "statement": "When the process stops while write_event_file writes, read_event_file refuses the file that is left as not being XML, unless at most the last line end is missing; then it gives the event that was being written.", "quantifier": "all events, all texts in them, all points at which writing stops", "why_tests_cant": "There is one crash point for each character of each file, and a text may contain what looks like the end of the file.", "anchors": ["impactutils/rupture/origin.py:write_event_file", "impactutils/rupture/origin.py:read_event_file"]}
{"id": "C219", "title": "GeoNames files in UTF-8 are read right", "statement": "The files of GeoNames are in UTF-8. Cities.fromGeoNames gives one city for each record whose ASCII name is not blank, in the order of the file, with the name, country, coordinates, capital flag and population of the record, whatever alphabets the names and other names in the records are in, although it reads the file as Latin-1; a record with a name that is not in ASCII gives none.", "quantifier": "all lists of records whose numbers, kinds and countries are in ASCII, all characters in the other fields", "why_tests_cant": "A byte of a character can be a blank or a line end when it is read by itself; there are more than a million characters.", "anchors": ["impactutils/mapping/city.py:Cities.fromGeoNames"]}
{"id": "C220", "title": "Widths and areas are right in binary arithmetic", "statement": "The width that get_quad_width computes with doubles is a number and the distance of the last corner from the straight line through the first two, QuadRupture.getWidth is the mean of these distances, and QuadRupture.getArea the sum of their products with the lengths of the top edges, up to errors that are stated: 33000000ku kilometres for a width, (35000000k + 100000n)u for the mean of n widths, n(34000000kL + 2000000B + 2BLn)u square kilometres for an area, where u is the precision of the arithmetic and of the mathematical library, k measures how far from a rectangle the quadrilateral is, L and B bound lengths and widths. getWidth of a rupture without quadrilaterals divides by zero. QuadRupture.getIndividualWidths has one such width for each quadrilateral, in their order.", "quantifier": "all quadrilaterals on the earth with top edges and widths of at least a metre, up to a million of them, all depths of up to 1000 km, all mathematical libraries of precision u, all orders in which the library adds an inner product", "why_tests_cant": "Two cross products of vectors of millions of metres lose digits; whether the direction of the result is still right depends on the shape of every quadrilateral.", "anchors": ["impactutils/rupture/utils.py:get_quad_width", "impactutils/rupture/quad_rupture.py:QuadRupture.getWidth", "impactutils/rupture/quad_rupture.py:QuadRupture.getArea", "impactutils/vectorutils/vector.py:Vector.cross", "impactutils/vectorutils/vector.py:Vector.norm", "impactutils/vectorutils/vector.py:Vector.dot", "impactutils/rupture/quad_rupture.py:QuadRupture.getIndividualWidths"]}
{"id": "C221", "title": "Directions and dips are right in binary arithmetic", "statement": "The unit vectors that get_quad_strike_vector, get_quad_normal, get_quad_down_dip_vector and get_vertical_vector compute with doubles are numbers and are the direction of the top edge, the normal, the direction down the dip and up at the first corner, with stated errors: 40000000000ku/b in each component, and 2000000u for up. The dip that get_quad_dip computes is a number and the angle between normal and vertical, up to 700u + 82E/sqrt(h) degrees, where E = (11000000000k/b + 5000000)u and the cosine of the dip is at least h >= 2E away from 1 and -1; QuadRupture.getDip is the mean of these angles, up to 500nu more for n quadrilaterals, and divides by zero without any. u is the precision of the arithmetic and the mathematical library, k measures how far from a rectangle the quadrilateral is, b is the length of its side in metres.", "quantifier": "all quadrilaterals on the earth with top edges and widths of at least a metre, up to a million of them, all first corners up to 998 km deep, all mathematical libraries of precision u, all orders in which the library adds an inner product", "why_tests_cant": "The arc cosine of a rounded number above 1 is not a number; a kilometre up is a difference of two numbers of millions of metres.", "anchors": ["impactutils/rupture/utils.py:get_quad_normal", "impactutils/rupture/utils.py:get_quad_strike_vector", "impactutils/rupture/utils.py:get_quad_down_dip_vector", "impactutils/rupture/utils.py:get_vertical_vector", "impactutils/rupture/utils.py:get_quad_dip", "impactutils/rupture/quad_rupture.py:QuadRupture.getDip"]}
{"id": "C222", "title": "Areas of edge ruptures are right in binary arithmetic", "statement": "EdgeRupture.getArea as computed with doubles is a number, and is the sum of the areas of the two triangles of every quadrilateral, up to n(4100000kB + B^2 n)u square kilometres for n quadrilaterals, where u is the precision of the arithmetic and the mathematical library, the perimeters of the triangles are at most B kilometres, and the square of a perimeter is at most k times the area of the triangle. For triangles of any shape, however thin, the area of a quadrilateral is right up to 2600 sqrt(B^3 u) square kilometres if it is a number.", "quantifier": "all lists of up to a million quadrilaterals on the earth with triangles of perimeters between a metre and 80000 km, all mathematical libraries of precision u; for the first part 2000000000 k^2 u <= 1", "why_tests_cant": "Heron's formula subtracts lengths that are nearly equal when a triangle is thin, and takes the root of what is left: the errors depend on the shapes of the triangles.", "anchors": ["impactutils/rupture/edge_rupture.py:EdgeRupture.getArea"]}
{"id": "C223", "title": "Lengths and widths of edge ruptures are right in binary arithmetic", "statement": "EdgeRupture.getLength as computed with doubles is a number that is not negative, and is the sum of the great-circle distances between the places over neighbouring upper points, up to n(2800000 + Ln)u kilometres for n pairs of neighbours that are at most L kilometres apart; u is the precision of the arithmetic and the mathematical library. EdgeRupture.getWidth is the area divided by the length: with errors a of the area and b of the length it is right up to 3(a + wb)/l + 2uw + u for a width w and a length l of at least 2b. A rupture without neighbours makes it divide by zero.", "quantifier": "all lists of up to a million quadrilaterals on the earth with upper corners up to 10000 km apart, and for the width with triangles as in C222; all mathematical libraries of precision u", "why_tests_cant": "Every distance goes through sines, an arc sine and two roots, whose errors depend on the distance; the number of terms is unbounded by tests.", "anchors": ["impactutils/rupture/edge_rupture.py:EdgeRupture.getLength", "impactutils/rupture/edge_rupture.py:EdgeRupture.getWidth"]}
{"id": "C224", "title": "Mean dips of edge ruptures are right in binary arithmetic", "statement": "The dip that EdgeRupture computes with doubles and getDip returns is a number, and is the angle of at most 90 degrees between the sum of the normals of the triangles and the sum of the directions up at their corners, where each triangle counts with its area, up to 700u + 82E/sqrt(h) degrees. E = (54n(3000000kB + 600000B^2 + B^2 n)/R + 200)u for n quadrilaterals with triangles of perimeters of up to B kilometres, whose squares are at most k times their areas, and sums of at least R square kilometres; the sine of the dip is at most 1 - h, where h is at least 2E. u is the precision of the arithmetic and the mathematical library. Vertical ruptures are not covered: the dip computed for every rupture along the equator in the plane of the equator is 0 instead of 90.", "quantifier": "all lists of up to a million quadrilaterals of the earth with triangles of at least a square metre and perimeters of one metre to 80000 kilometres, all mathematical libraries of precision u, all orders in which the library adds an inner product", "why_tests_cant": "The sums weigh rounded normals with rounded areas; the arc sine of a rounded number above 1 is not a number, and a sign of zero makes the dip zero.", "anchors": ["impactutils/rupture/edge_rupture.py:EdgeRupture._computeStrikeDip", "impactutils/rupture/edge_rupture.py:EdgeRupture.getDip", "impactutils/vectorutils/vector.py:Vector.norm", "impactutils/vectorutils/vector.py:Vector.cross"]}
{"id": "C225", "title": "Lengths, areas, widths and dips of all ruptures stay in range in binary arithmetic", "statement": "Whenever EdgeRupture.getArea and getLength compute numbers with doubles, these are not below 0, and a rupture with more quadrilaterals at the end has at least the area and the length of the shorter one, which are numbers too. A width that EdgeRupture.getWidth computes is not below 0 and comes with a length above 0. A dip that EdgeRupture.getDip computes is from 0 to 90 degrees, and is not a number without quadrilaterals. A dip that QuadRupture.getDip computes is from 0 to 180 degrees.", "quantifier": "all lists of quadrilaterals with any corners (up to a trillion for QuadRupture.getDip), all mathematical libraries; for the dips those whose arc sines of numbers from 0 to 1 are from 0 to a quarter of a turn, whose arc cosines are from 0 to half a turn, and whose square of 0 is 0", "why_tests_cant": "Every rounding could leave the range by one unit, and the sums have any number of terms; the shapes for which the error bounds of C221 to C224 hold are not assumed.", "anchors": ["impactutils/rupture/edge_rupture.py:EdgeRupture.getArea", "impactutils/rupture/edge_rupture.py:EdgeRupture.getLength", "impactutils/rupture/edge_rupture.py:EdgeRupture.getWidth", "impactutils/rupture/edge_rupture.py:EdgeRupture.getDip", "impactutils/rupture/quad_rupture.py:QuadRupture.getDip"]}
{"id": "C226", "title": "Distances to ruptures in binary arithmetic do not depend on the order of the quadrilaterals", "statement": "The rupture and Joyner-Boore distances that computeRrup and computeRjb compute with doubles for a rupture of two parts are the smaller one of the distances to the parts, to the last bit. They depend on which quadrilaterals there are only, not on their order or on how often one of them occurs. For QuadRupture they are from 0 to 1e16, are 1e16 without quadrilaterals, and are numbers exactly if the distances to both parts are; its Joyner-Boore distance does not depend on the depths of the corners.", "quantifier": "all lists of quadrilaterals with any corners, all sites, all mesh spacings, all mathematical libraries, all ways in which the library adds numbers", "why_tests_cant": "Rounded operations usually depend on their order in the last bits; all orders of all ruptures cannot be tried.", "anchors": ["impactutils/rupture/quad_rupture.py:QuadRupture.computeRrup", "impactutils/rupture/quad_rupture.py:QuadRupture.computeRjb", "impactutils/rupture/edge_rupture.py:EdgeRupture.computeRrup", "impactutils/rupture/edge_rupture.py:EdgeRupture.computeRjb"]}
{"id": "C227", "title": "Strikes of edge ruptures are numbers in range in binary arithmetic", "statement": "The strike that EdgeRupture.getStrike computes with doubles is a number, is at least -180 degrees and less than 180 degrees.", "quantifier": "all lists of quadrilaterals with any corners, all mathematical libraries whose atan2 is at most half a turn, all orders in which the library adds an inner product", "why_tests_cant": "The strict bound of 180 degrees rests on which doubles there are just below -180; strikes that are not numbers arise from an exact zero after any number of rounded operations.", "anchors": ["impactutils/rupture/edge_rupture.py:EdgeRupture._computeStrikeDip", "impactutils/rupture/edge_rupture.py:EdgeRupture.getStrike"]}
{"id": "C228", "title": "Strikes of ruptures are right in binary arithmetic", "statement": "The strike that QuadRupture.getStrike computes with doubles is from -180 to 180 degrees, and is not a number exactly when the lengths of the top edges have the sum 0. It points where the mean of the directions of the top edges (Point.azimuth) weighed with their lengths (getIndividualTopLengths) points: some multiple of its sine and cosine, not below 0, are the mean sine and cosine, up to 300u, where u is the precision of the arithmetic and of the mathematical library.", "quantifier": "all ruptures of up to a million quadrilaterals with any corners and top edges of together at least a metre, all mathematical libraries of precision u, all ways in which np.sum adds with an error of at most 100u; the range for all ruptures and all libraries whose atan2 is at most half a turn", "why_tests_cant": "The errors of all quadrilaterals add up, in an order that is not specified, and directions may nearly cancel.", "anchors": ["impactutils/rupture/quad_rupture.py:QuadRupture.getStrike"]}
{"id": "C229", "title": "Slip vectors add up in binary arithmetic", "statement": "The dip-slip and strike-slip vectors that get_local_unit_slip_vector_DS and get_local_unit_slip_vector_SS compute with doubles add up to the one of get_local_unit_slip_vector to the last bit, and the strike-slip vector is level. All components are those of the trigonometric formulas for the exact angles, up to 60u for the two parts and the vertical component and 80u for the horizontal components of their sum, where u is the precision of the arithmetic and of the mathematical library.", "quantifier": "all angles and all mathematical libraries for the sum, all angles of up to a full turn and all libraries of precision u for the components", "why_tests_cant": "Rounded sums and products of all triples of angles; a test compares a few vectors to some decimals.", "anchors": ["impactutils/rupture/utils.py:get_local_unit_slip_vector", "impactutils/rupture/utils.py:get_local_unit_slip_vector_DS", "impactutils/rupture/utils.py:get_local_unit_slip_vector_SS"]}
