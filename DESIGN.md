# Formal model of earthquake-impact-utils: design

## Layout

* `lean/Verif/Model/*.lean`: the model. One definition per Python function, mirrored branch by
  branch; each definition cites the file and lines in /repo. Exceptions are values (`Except`, or an
  inductive error type); Python loops are folds, structural recursion, or a fuel-indexed run when
  termination itself is a property.
* `lean/Verif/Spec/*.lean`: small specifications that do not mention the model's helpers.
* `lean/Verif/Lemmas/*.lean`: helper lemmas.
* `lean/Verif/Props/*.lean`: the property theorems (named in `MANIFEST.json`), each followed by an
  `example` showing that a concrete non-trivial case meets its hypotheses.
* `seeded/LOG.jsonl`: seeded-bug experiments.

## Conventions and trusted base

* Lean's kernel, and the axioms `propext`, `Classical.choice`, `Quot.sound` only. No `sorry`,
  `native_decide`, `bv_decide` or added axioms. `AXIOMS.md` lists the axioms of each theorem of the
  manifest, as printed by `#print axioms`.
* The model is a reading of the source: nothing here runs the Python code.
* Numbers. Python ints are `Int`/`Nat`. In the basic model of each function floats are exact rationals
  (`Rat`) or, where trigonometry or square roots are involved, reals (`Real`); rounding error, overflow,
  infinities and NaN are outside that model unless a definition says otherwise. Where code only compares
  floats, the model is generic in a linear order (this covers all floats except NaN).
* Binary arithmetic. `Verif.Dbl.rnd` is IEEE 754 binary64 rounding to nearest, ties to even, without overflow
  and NaN; `sqrtRnd` is the rounded square root. With it there is a second model, in which every operation is
  rounded, of: the rounding functions (C176), times, zones and directions (C185), amounts and texts of
  floats (C190), palettes (C191), the text of floats in JSON (C194), vectors (C195), the grid of cities (C197), great
  circles (C200), earth-centred coordinates (C203, C204), lengths of ruptures (C205), edge ruptures (C207), and
  segments and quadrilaterals (C208, C209). sin, cos, atan2 and the like are parameters there with a stated
  accuracy (`MathLib`), as IEEE 754 does not fix them.
* Strings are `List Char` (or `List UInt8` for bytes) or `String` when only equality matters.
* Third-party libraries (h5py, pandas, shapely, pyproj, matplotlib, paramiko, smtplib, ftplib, lxml)
  are not modelled; each use is a parameter or a small abstract machine whose assumed behaviour is
  stated in the definition's comment.

## What is modelled

`COVERAGE.md` lists every function of the package with the lines that are modelled and the definitions that
model them; functions marked there as not modelled are outside the model. Drawing is modelled as far as it
decides what is drawn where (`mapcity`, `mercatormap`, `plotrupture`, figures as shared objects in C196 and
C202); pixels are not. Not modelled: the commands `git` runs inside `_version.py`, network connections below
the calls of the libraries, and the inside of third-party libraries.

## When the code violates a property

The model follows the code. The negation is proved with a concrete witness
(`..._violated`), the part that does hold is proved as `..._partial`, and the property is marked
`partial` in MANIFEST.json.

## Plan, property by property

| id | what is modelled | how it is proved |
|----|------------------|------------------|
| C01 | `_dec_to_roman` greedy recursion on the two denomination lists | greedy loop on each denomination block; table over digits; spec: place-value table and an independent subtractive reader |
| C02, C03 | the regex loop of `commify` as a step function on strings, iterated with fuel | step consumes three digits of the leading run; spec groups digits from the right |
| C04, C05 | `round_to_nearest` etc. over `Rat`, banker's `round` defined from floor | nearest-multiple characterisation by floor inequalities |
| C06, C07 | `pop_round_short`, `dollar_round` | case analysis on thresholds; violation of C07 at 1,000,000 |
| C08 | `'{:.Ne}'` as exact decimal scientific rounding | decimal exponent bounds, half-even rounding error |
| C09, C10 | nested division chain and string selection | omega on div/mod; unit selection |
| C11 | floor/mod over `Rat` | floor inequalities |
| C12-C14 | clamp, index, clamp | order reasoning; violation for date-line rasters and for the ignored argument |
| C15, C16 | year mapping, proleptic Gregorian calendar spec, percent-run scanner | mod-400 arithmetic; induction on the format string |
| C17, C18 | zone scan with polygon test as a parameter, attribute store | first-match induction; violations for the accessors |
| C19, C20 | argmin over direction grid | argmin correctness; violation for unforwarded format |
| C21-C23 | tables as lists of rows | filter lemmas; cell disjointness; edge-drop violation |
| C24 | box list scan | pairwise induction |
| C25-C27 | length table, argmin, division loop | argmin correctness, table check by `decide`, telescoping |
| C28-C31 | palette construction and colour formats | length logic, monotone affine map, table check, hex round trip |
| C32, C33 | HDF file as group map; step function | refinement to five abstract maps by induction over histories |
| C34-C38 | tree of groups; container operations as state transitions with explicit partial effects on failure | state-machine invariants; violations with concrete histories |
| C39, C40 | factory and constructor checks | decision logic |
| C41-C44 | abstract file system (path to contents), sender as a list of primitive operations | invariants over every prefix of the operation list (crash points) |
| C45, C46 | FTP server with cwd and directory set | induction over path parts; fold over files with an arbitrary failure oracle |
| C47, C48 | template substitution on char lists | non-interference of placeholders |
| C49-C51 | recipient batching, server loop with failure oracle | partition by induction; divergence for every fuel; violation for quit failure |
| C52-C54 | id/source lists, response oracle | argmax correctness |
| C55-C57 | byte-level quoting and a POSIX word parser; scp stream and its interpreter | induction on strings and trees; traversal witness |
| C58, C59 | vectors over a field / reals; ECEF formulas | ring, atan2 facts |
| C60-C62 | polygon checks over a linear order | list induction, rotation algebra |
| C63-C67 | plane, segment and slip geometry | determinant identities, quadratic minimisation, trigonometric identities |
| C68-C70 | mechanism decision logic | case analysis |
| C71, C72 | quad extraction | list indexing; violation for several groups |
| C73 | Heron formula | real algebra |
| C74-C76 | GC2 accumulation over reals | arctan monotonicity; violation on the trace |
| C77 | request validation | decision logic |
| C78-C80 | geodetic helpers | real trigonometry, floor arithmetic |
| C81 | steps below one through the decimal text of the step | the text round trip for fixed-point steps; violation for exponent notation |
| C82, C83 | the guard of `strftime` before 1900; unit selection of `getTimeStr` | string scanning; decision logic; violations |
| C84 | axes-to-data transform as an affine map | linear arithmetic |
| C85, C86 | palette knots and linear interpolation | real algebra on consecutive knots |
| C87 | output container on top of the HDF model | tree lemmas; one step of each operation |
| C88-C90 | message headers, attachments, zip entries, cancel text | membership in the composed message; violations |
| C91-C94 | constructor of the web query classes with a response oracle; time and address texts | case analysis over responses; floor arithmetic; substring replacement |
| C95 | `ecef2latlon` (one step of Bowring's method) after `latlon2ecef` | complex argument of a positive multiple; exact at depth 0, on the equator and at the poles |
| C96-C99 | quadrilateral distance, frame, width, dip, mesh | convex geometry over the reals: signs of half planes, projections, bilinear interpolation |
| C100, C101 | the reader of text files as a state machine over lines; the choice of class | induction over lines, independent description of the format; case analysis |
| C102, C103 | outline, polygons from arrays of corners with a group index | list algebra |
| C104-C106 | rrup, rjb, summaries, average strike | folds of minima as infima over the surface; complex argument of a weighted sum |
| C107-C110 | depth at a point, construction from a trace, area, groups of a trace | trigonometry; violations with concrete corners |
| C111 | text written and read back | composition of the writer with the reader of C100 |
| C112-C114 | edge ruptures: arrays, mean plane, mesh distances | list algebra; vector algebra; half-step covering argument |
| C115-C118 | origins, `source.txt`, `event.xml` | dictionaries as association lists; composition of writer and reader |
| C119-C123 | the GC2 loop, discordant traces, origin of U, ry0 | folds as weighted sums; weights as integrals over the segment; one turn of the direction search; violations |
| C124-C130 | openquake helpers: boxes across the date line, points, coordinates, projection | circular arithmetic with floor, unit vectors, spherical trigonometry |
| C131-C135 | `get_distance`, `Distance`, point ruptures, rupture context | decision logic over dictionaries of arrays |
| C136-C140 | the secure sender over an arbitrary remote machine (state, command, upload) | invariants over every prefix of the run; liveness on a machine that follows a small specification of Unix commands |
| C141-C142 | the FTP sender without failing commands; FTP cancel | invariant over the run (places of files and folders stay free) in the style of C139; every failure pattern for the safety part of cancel |
| C143-C144 | get_middle_point, Point.point_at, distance_to_mesh, closer_than over a point_at that goes along great circles | unit vectors: the orthonormal frame at a point turns azimuth and distance into a vector; the library's own formula is the witness |
| C145 | plane_fit over a singular value decomposition | columns of the first factor are eigenvectors of the symmetric matrix; expansion in them; the mean is the best point |
| C146-C147 | fromTrace and fromOrientation as a whole, with the orthographic projection | the reverse projection is a right inverse on the disk; list algebra; complex arguments for the corner |
| C148-C149 | JSON documents as a data type, validate_json for any document, get_rupture with both attempts and its translation of exceptions; json.load, float and the constructors are parameters | case analysis over the checks; the lines and polygons of C62, C100, C101; induction over the leading white space for the refusal |
| C150-C154 | The bytes of scp in both directions: the actions of put with the replies of the other side, get as a loop over portions of a stream with the calls of the operating system it makes; sessions of the channel | the messages of the protocol as a data type; stop-and-wait by composition of actions; C56 for the order of directories; induction over trees for get; an invariant of the loop for any stream |
| C155-C159 | `_version.py`: the pieces from git, the six styles, keywords, parent directories, get_versions; git is an arbitrary function of the command | a checkout and what git prints for it as a specification; the regular expression by its last hyphens; PEP 440 versions as a data type; list algebra; violations |
| C160, C161 | `getDepthAtPoint` as a whole, sizes of single quadrilaterals, `get_quad_slip` | C96 for the choice of the quadrilateral, plane geometry for the way down dip, the frame of C130 for the slip; violation with a vertical quadrilateral |
| C162 | `fromGeoNames`, `limitByName`, `getCities` | A specification of records by their fields; induction over the records; every record either stands for something or raises |
| C163 | `ColorPalette.fromFile`: the loop over the lines, the words of the table, the columns | A specification of lines by their form; induction over the lines; the palette itself by C28, C29 and C85 |
| C164 | `MercatorMap.__init__`, `drawCities`, `renderRow` over the collision model of C24 | The drawing commands as a list, compared with the table returned; counterexamples by evaluation and by induction over calls |
| C165 | `GeographicObjects` with the index as a parameter, the projection of C130 | Through C130 and the frame of unit vectors at the centre; the counterexample by the sines of 45, 60 and 80 degrees |
| C166 | `line_intersects_itself` with `is_simple` as a parameter | A specification of lines and polygons by their edges; the closing edge by a lemma on two segments with a common end |
| C167 | `get_recent_timezone_data`: the loop over links, the archive, the loop over members, the deletion | The disk as two functions of paths; induction over the members |
| C168 | The constructors of the three rupture classes as far as metadata go, `rupture_from_dict`, `getRuptureContext` | The constructor of `Origin` applied to its own attributes; lookups after a fold of insertions |
| C169 | `Origin.fromFile` | Lookups after `dict.update`; the theorem about the constructor of `Origin` |
| C170 | `save`, `fromCSV` with the CSV format: quoting when writing, a state machine when reading | Induction over fields and rows |
| C171 | `sortByColumns`, `project` | Lookups after a column is set |
| C172 | Methods that change a sender; dictionaries on a heap | Induction over histories of calls |
| C173 | Connections opened and closed by `SecureSender` | Cases of the outcome; induction over the number of calls |
| C174 | Vector operators with operands of any type | Cases of the operand |
| C175 | plot_rupture_wire3d and map_rupture as lists of drawn lines and an extent | Induction over groups; nanmin and nanmax as folds |
| C176 | IEEE binary64 rounding to nearest even without overflow; the rounding functions with every float operation rounded | Rounding gives the nearest double; a quotient of a double and an integer is further from whole and half numbers than its rounding error |
| C177 | Files by name, objects that are open or closed, and the calls on them | Invariant: a file holds what the calls since its creation left in it |
| C178 | `send` as a program of single questions and operations; processes that take turns in any order | Invariant on every process and the file system: a temporary file in use holds a prefix of the pieces and nobody else touches it; simulation of the sequential model |
| C179 | The command text of C47 read by the shell of C55 | Induction on texts: plain and double-quoted texts are parts of one word; words of the template by concatenation |
| C180 | `json.dumps` and `json.loads` as the containers use them, character by character | Mutual induction on values: reading what was written gives the value and leaves the rest; induction on texts for escapes; the last item with a key counts; floats: two different doubles are at least a 2^53-th apart, so seventeen digits determine a double, and the reader inverts the writer part by part |
| C181 | `json.dump` piece by piece into a file, the dictionaries of the three classes, and the way back | Composition of C180 and C168; mutual induction shows that a text that ended in an exception is rejected by every later reading |
| C182 | The five documents of the ShakeMap containers as slots of the HDF tree, all calls of the output container | Refinement: induction on histories with the invariant of C37, the tree holds what five independent registers hold; composition with C181 |
| C183 | getDataColor end to end: the knots, matplotlib's table of N colours and its lookup, NaN, the logarithm, the setters of vmin and vmax | The table entry read is that of a position at most 1/N away (floor arithmetic); entries are the ranges' straight lines (C29); order by monotone floor and induction over the ranges |
| C184 | equally_spaced_points over the library's intervals_between, from_vector | Going along the azimuth for the distance arrives at the destination (frame of C78); two points of one great circle are as far apart as their ways differ; the rounding of distance and number of intervals by inequalities |
| C185 | The functions of C09, C11, C12, C17 and C19 that calculate with floats, with binary64 rounding | The rounding of C176: error bounds; differences with compass angles are exact on one side; rounding never crosses a double |
| C186 | Python's UTF-8 codecs (strict, `replace`, `surrogateescape`), `asbytes`, `asunicode`, and `put`, `get` and the end of the PDL `send` with names and outputs as strings | Pieces of the decoder: each is an encoded character or bytes above 0x7F; slashes split decoding; the run with strings is the run with bytes up to the first name that is not UTF-8. The specification is Lean's `String.utf8EncodeChar` |
| C187 | Containers whose data sets hold bytes: `json.dumps` or the string, encoded as UTF-8 and kept by the HDF5 library | The codec of C186 and the round trip of C180 composed, put into the five maps of C32 |
| C188 | Dictionaries, origins and ruptures as objects with addresses; what a caller can do with those it has | Induction over histories: a dictionary changes only through a call that uses it, and the address of a deep copy is never among those the caller has |
| C189 | The attributes of SCPClient that outlive a transfer, the receiving loop with the client also after an exception, sessions by number | The loop agrees with the one of C152 (induction over rounds); invariants over histories: nothing is left over after a normal return, and each session is closed once |
| C190 | dollar_round with every operation rounded to a double, and repr as the shortest decimal that reads back | A decimal of at most 15 digits is the one nearest to its double, so the shortest decimal is this one; the quotient of an integer by a power of ten is too far from every tie but its own for the error of the division to matter |
| C191 | Knots, table, index and formats of a palette with each float operation rounded to the nearest double | Rounding is monotone and has relative error at most 2^-53, also for differences of doubles; a backward error analysis of index, place in the table and blend of two colours; for flat ranges the blend is exact |
| C192 | Documents as objects with addresses, methods that return references, programs that change what they can reach | An invariant: the addresses of the document are as at first and nothing outside refers to them; reading from memory and from the document agree step by step |
| C193 | Data frames of any columns as objects in memory, Cities objects with frames of their own, programs over both | Masks keep the rows at increasing positions, column by column; a simulation between memory and tables as values, with the invariant that no two variables share a frame |
| C194 | `strftime` with the directives of the formats in use, `strptime` as the list of all ways in which the regular expression of a format matches, in the order of backtracking | The first match of a text of the grammar is found directive by directive; every match is of the grammar; so the texts that are read are described exactly, and the round trip follows from the form of the text |
| C195 | `Vector` with doubles for components, each operation rounded; `dot` as the list of all its possible values, `x**2` as a parameter, `sqrt` by the integer root of the scaled number | Error bounds of each rounding are added up; sums of doubles are exact below the normal range, so that sums have a relative error throughout; the bounds of roots by comparing squares |
| C196 | pyplot's open figures, axes with their marks and current axes as one state; the map calls and the caller's own as steps that return an event | An invariant over the events: numbers of axes grow, each map holds two of them that nobody else has, and the marks on each are the flattened events |
| C197 | limitByGrid with every difference, quotient, product and sum rounded to the nearest double | Error bounds for the limits of the cells, then counting of each city over the cells; concrete doubles for the violations |
| C198 | float and int of a text: blanks, underscores, sign, digits, point, exponent, words; the double nearest to the exact value | Equivalence with an independent grammar of numerals; reading back of repr, str and .4f; C111 and C117 with these functions |
| C199 | The loops that fill the three arrays and the outlines, with nan as none; the minimum of the top depths | The groups of an array with gaps are unique; induction over polygons; C71, C72 and C102 for the outlines |
| C200 | geodetic_distance, distance and azimuth with every operation rounded to a double; library functions as parameters with a relative error u | Error bounds for each step in real numbers; Lipschitz bounds for the root and the arc sine; C78 for the exact distance |
| C201 | Minimum and maximum of the two columns | Least and greatest members of lists; the filter of limitByBounds at the edges |
| C202 | Programs over a heap of font lists, with matplotlib's fonts as a list that can grow | Simulation of a run by values; each object's list has an address of its own as invariant |
| C203 | latlon2ecef with every operation rounded; the point over the ellipsoid through its normal | Error of each rounded product, sum, root and quotient, added up; the ellipsoid's point is unique |
| C204 | The model of C59 and C95; points over the ellipsoid of C203 | Bowring's formula: the error of the direction is a cubic form in the direction of the reduced latitude, bounded through the tangent; the depth through the error of the cosine |
| C205 | get_quad_length, getLength and getIndividualTopLengths with every operation rounded | Errors of C203 through the difference, the length (triangle inequality) and the sum, by induction over the quadrilaterals |
| C206 | The lists of names on a heap by identity; constructions, the two methods, copies, appends and removals | Frame lemma by induction over the history; the violation by computation and for all classes |
| C207 | The mesh of `get_quad_mesh` and the smallest distance to its nodes with every operation rounded to binary64; libm and `np.mean` are parameters with error bounds | Error propagation through interpolation, lengths and counts; nearest node of the mesh by the triangle inequality |
| C208 | `_distance_sq_to_segment` with every operation rounded to binary64; the order of `np.sum` is a parameter with an error bound | The parameter chosen is near the best one in each branch; distances move by at most the error of the point |
| C209 | `_quad_distance` and the loops of `QuadRupture.computeRrup` and `computeRjb` with every operation rounded to binary64; libm, the order of `np.sum` and the sign of zero sums are parameters | Errors of the normal and of the four sums that decide whether a site is over the surface; a site on the wrong side of the test is so near a side that both formulas agree |
| C210 | `send` of the copy sender as a run with all states between primitive operations; `Tries` chains any number of cut-off runs | Invariant of all visited states: places of files and temporary names hold no directory, places of directories hold no file, sources are unchanged; from it every operation of a run succeeds, by induction over the files |
| C211 | `send` of the FTP sender with failing commands and lost connections, as for C43 and C141; `FtpTries` chains any number of runs | Every step of every command keeps the room for the files (`FtpRoom`), so C141 applies to whatever state is left; contents by induction with C43 |
| C212 | `send` of the secure sender on a Unix machine with failing commands and uploads, as for C136 and C137; `SecureTries` chains any number of runs | Every step keeps the room for the files (`Room`, `NoTempDirs`), so C137 applies to whatever state is left; contents by induction with C136 |
| C213 | `__str__`, `__repr__` and `wkt2d` of a point, with the formats `.6f` and `.4f` and `repr` of floats (C194, C195, C198) | The texts of numbers have no comma and no blank, so the parts are unique; C198 reads them; great-circle distances are at most π/2 times the sum of the differences |
| C214 | `put` and `get` of scp.py as for C151 and C152 | Every stream from which a receiver makes a tree (C56) is the stream of a tree of the protocol, by induction on the stream; streams can be read in one way only (C150), so C152 applies to what arrives |
| C215 | `writeGeoJson` up to a stop (RuptureStop.lean), `json.load`, `get_rupture` and Python's `float` as for C149, C180 and C198 | Reading a bracketed text does not depend on what follows it, by induction on the steps of the reader; the complete text is read to its end (C180), so no proper beginning of it is read, and as a text file it is refused because of its brace (C149). The empty file is read: violated there |
| C216 | `save` and `fromCSV` as for C170; what is left of a file is a beginning of its text | Induction on the rows, the fields and the characters of a field, in and out of quotation marks. The statement in full is false: short files are read |
| C217 | `write_event_file` and `read_event_file` as for C117, and the text between them: `Model/EventXml.lean` is the serializer and the parser, character by character | Induction on the characters of a value, with and without references, and on the attributes; then C117 |
| C218 | as C217; what is left of a file is a beginning of its text | A sign that ends the element occurs only at the end of the text, by cases on the escaped characters; a text without it is refused, by induction on the attributes |
| C219 | `fromGeoNames` as for C162, from the bytes of the file | No byte of a character outside ASCII is below 128, and its first byte is no blank: fields, lines and names in ASCII are kept, by induction on the text; then C162 |
| C220 | `get_quad_width`, `getWidth` and `getArea` with every operation rounded; the library's square, sine and cosine and the order of its inner product are parameters | Errors of the corners (C203) carried through differences, both cross products, the norm and the inner product; the exact vector across has the length AB²·W and the component W along AC; sums by induction as for C205 |
| C221 | `get_quad_normal`, `get_quad_strike_vector`, `get_quad_down_dip_vector`, `get_vertical_vector`, `get_quad_dip` and `getDip` with every operation rounded; the arc cosine is a parameter | Errors of the corners carried through cross product, norm and inner product, as for C220; the exact normal is the only unit vector with its defining properties; the mean value theorem for the cosine turns an error of the cosine into one of the angle; sums by induction |
| C222 | `EdgeRupture.getArea` with every operation rounded, Heron's formula with a negative number under the root as not a number | The error of the number under the root is at most 24 times the fourth power of half the perimeter times the relative error of the lengths, factor by factor; an upper bound of the perimeter by the area gives the error of the root and that it exists; Heron's formula is half the cross product, and so half side times height; sums by induction |
| C223 | `EdgeRupture.getLength` and `getWidth` with every operation rounded, on top of the rounded `Point.distance` of C200 and the rounded area of C222 | C200 bounds the error of one distance, induction that of the sum; the error of a quotient from those of its parts |
| C224 | The loop of `_computeStrikeDip` and the dip it computes, with every operation rounded; the vectors to the north and the strike are left out | Errors of the corners carried through cross products, norms, Heron's formula and the weighted sums, by induction over the quadrilaterals; the sum of the exact terms is a sum of half cross products; the mean value theorem turns an error of the sine into one of the angle |
| C225 | The definitions of C221 to C224 | Rounding is monotone and keeps doubles, so that bounds that are doubles survive every operation; sums by induction over the quadrilaterals; the bounds 90 and 180 are evaluated once at the largest arc |
| C226 | The definitions of C207 and C209 | The loop gives D exactly if all distances are numbers and D is the least of them and the start, by induction; the claims follow from this description, and from the one of C207 for edge ruptures |
| C227 | `_computeStrikeDip` with every operation rounded: `northward`, `addNorths`, `edgeStrike`; atan2 is a parameter | Rounding is monotone, and the bounds are evaluated once at half a turn; no double is between -180 and -180 - 2^-45, so that adding 360 stays below 180. Along the equator the sums of C224 have exact zeros, by induction |
| C228 | `QuadRupture.getStrike` with every operation rounded: `quadAzimuth`, `quadStrike`; np.sum and atan2 are parameters | Errors of sines, products, sums and quotients, by induction over the quadrilaterals; the polar form of a complex number turns the error of atan2 into one of sine and cosine |
| C229 | `get_local_unit_slip_vector` and its two parts with every operation rounded: `localSlip`, `localSlipDS`, `localSlipSS` | The same rounded terms occur in both; a rounded number stays as it is when 0 is added. Errors of angles, sines and products as for C200 |
