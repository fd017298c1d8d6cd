{"id": "C01", "title": "Eight-column integers survive a write and a read", "statement": "For every integer the library agrees to write into an 8-column Directory/sequence field, the text is exactly 8 characters and reading that column of any record containing it gives the same integer back; integers outside -9999999..99999999 are refused.", "quantifier": "all integers, all ten field positions, all surrounding column contents", "why_tests_cant": "10^8 values times ten columns times arbitrary neighbours", "anchors": ["src/iges/iges_io.cpp:FormatDEInt", "src/iges/iges_io.cpp:DEItemToInt"]}
{"id": "C02", "title": "Blank directory fields take the default, junk is refused", "statement": "Reading an 8-column field succeeds exactly when the column is blank and a default is offered, or it consists of optional leading blanks, an optional sign and digits up to the end of the column; any other content is refused and the variable is left as it was.", "quantifier": "all 8-character column contents", "why_tests_cant": "all byte strings of length 8", "anchors": ["src/iges/iges_io.cpp:DEItemToInt"]}
{"id": "C03", "title": "Record reader accepts only well-formed 80-column records", "statement": "A line is accepted as an IGES record only if after dropping line-end characters it has exactly 80 columns, column 73 is one of F,S,G,D,P,T and columns 74-80 are a positive integer; then data, section and sequence number are those columns. Every line the library emits in the S, G, D, P and T sections is accepted and yields the same data, section and sequence number.", "quantifier": "all lines", "why_tests_cant": "unbounded input space", "anchors": ["src/iges/iges_io.cpp:ReadIGESRecord"]}
{"id": "C04", "title": "Parameter-data lines are always 80 columns, numbered consecutively and carry the owner's pointer", "statement": "Whatever sequence of parameters and strings an entity emits, each parameter-data line produced is exactly 80 columns plus newline, columns 66-72 hold the entity's DE pointer, column 73 is P, and the sequence numbers are consecutive from the starting index, so the number of lines equals the difference of the indices.", "quantifier": "all sequences of emitted items of any length and content", "why_tests_cant": "unbounded item sequences and lengths interact with the 64-column limit", "anchors": ["src/iges/iges_io.cpp:AddPDItem", "src/iges/iges_io.cpp:AddPDHStr"]}
{"id": "C05", "title": "Parameter text is preserved across line breaking", "statement": "Joining the first 64 columns of the emitted parameter-data lines and tokenising by the delimiters gives back exactly the emitted integer and Hollerith parameters, in order, whatever their lengths and wherever the lines break.", "quantifier": "all lists of integers and strings, all legal delimiter pairs", "why_tests_cant": "line breaks fall at arbitrary places inside arbitrary content", "anchors": ["src/iges/iges_io.cpp:AddPDItem", "src/iges/iges_io.cpp:AddPDHStr", "src/iges/iges_io.cpp:ParseInt", "src/iges/iges_io.cpp:ParseHString"]}
{"id": "C06", "title": "Hollerith strings may contain anything", "statement": "A non-empty string written as a Hollerith parameter and read back is identical even if it contains parameter delimiters, record delimiters, blanks or the letter H; the read cursor stops just after the delimiter and reports end-of-record iff the record delimiter was used.", "quantifier": "all strings, all positions, all following data", "why_tests_cant": "unbounded strings and contents", "anchors": ["src/iges/iges_io.cpp:ParseHString", "src/iges/iges_io.cpp:GetHConst"]}
{"id": "C07", "title": "The parameter cursor never leaves the record and always advances", "statement": "Every parameter parser that reports success leaves the cursor strictly greater than before and not beyond the end of the data, never inspects a character outside the data, and on exhausted data reports failure; so a loop that reads parameters until end of record terminates on every input.", "quantifier": "all data strings, cursors and delimiters", "why_tests_cant": "every malformed file is an input", "anchors": ["src/iges/iges_io.cpp:ParseHString", "src/iges/iges_io.cpp:ParseLString", "src/iges/iges_io.cpp:ParseInt", "src/iges/iges_io.cpp:ParseReal"]}
{"id": "C08", "title": "Global-section lines are always 80 columns with consecutive numbers", "statement": "Whatever global parameters are written, each emitted global line has 72 data columns, the letter G, a 7-column consecutive sequence number and a newline, and joining the data columns gives the parameters back.", "quantifier": "all parameter sequences", "why_tests_cant": "line breaking at arbitrary content", "anchors": ["src/iges/iges_io.cpp:AddSecItem", "src/iges/iges_io.cpp:AddSecHStr", "src/iges/iges.cpp:writeGlobals"]}
{"id": "C09", "title": "Real parameters always carry a decimal point or exponent, fit a line and end with the delimiter", "statement": "Every real number the library formats contains a decimal point or an exponent, never starts the next field, ends with the requested delimiter, is never longer than a parameter line, and never contains the parameter or record delimiter before its end.", "quantifier": "all finite values, positive resolutions and delimiters", "why_tests_cant": "continuum of values", "anchors": ["src/iges/iges_io.cpp:FormatPDREal"]}
{"id": "C10", "title": "Real parameters are written to within the file resolution", "statement": "The value denoted by the text of a real parameter differs from the value in memory by no more than the file's minimum resolution (or half a unit in the 16th significant digit for large values).", "quantifier": "all values and resolutions", "why_tests_cant": "continuum of values", "anchors": ["src/iges/iges_io.cpp:FormatPDREal", "src/iges/iges_io.cpp:ParseReal"]}
{"id": "C11", "title": "Directory entries survive a write and a read", "statement": "Writing an entity's two Directory Entry records and reading them back yields the same type, form, structure/line/level/view/transform/label/status/colour/weight values, parameter pointer, line count, label and subscript.", "quantifier": "all legal field values of all entity types", "why_tests_cant": "product of twenty fields over their ranges", "anchors": ["src/entities/iges_entity.cpp:writeDE", "src/entities/iges_entity.cpp:readDE"]}
{"id": "C12", "title": "Status number packs and unpacks visibility, dependency, use and hierarchy", "statement": "The 8-digit status number written for any visibility, subordinate switch, use flag and hierarchy is decoded to the same four values.", "quantifier": "all flag combinations and all decoded 8-digit numbers", "why_tests_cant": "all status numbers up to 99999999 must be decoded or refused", "anchors": ["src/entities/iges_entity.cpp:writeDE", "src/entities/iges_entity.cpp:readDE"]}
{"id": "C13", "title": "Directory pointers resolve to the entity they were written for", "statement": "When entities are written in list order, the i-th gets DE number 2i+1, and a reader resolving a stored DE number through the entity list gets that same entity; pointers outside the list are refused.", "quantifier": "all entity lists of any length", "why_tests_cant": "list length unbounded", "anchors": ["src/iges/iges.cpp:Write", "src/entities/iges_entity.cpp:associate"]}
{"id": "C14", "title": "The terminate record reports the true section sizes", "statement": "The T record of a written file states exactly the numbers of S, G, D and P lines in the file, and the reader decodes the same numbers.", "quantifier": "all models", "why_tests_cant": "counts depend on all content", "anchors": ["src/iges/iges.cpp:Write", "src/iges/iges.cpp:readTS"]}
{"id": "C15", "title": "Dates in the global section are validated", "statement": "A date string is accepted exactly when it is 13 or 15 characters YYMMDD.HHNNSS / YYYYMMDD.HHNNSS with a real calendar month, day, hour, minute and second.", "quantifier": "all strings", "why_tests_cant": "all strings of length 13 and 15", "anchors": ["src/iges/iges.cpp:checkDate"]}
{"id": "C16", "title": "Delimiters chosen in the file are honoured", "statement": "A file whose first two global parameters select a parameter delimiter and a record delimiter is parsed with these two delimiters, for every legal pair including the defaults.", "quantifier": "all legal delimiter pairs", "why_tests_cant": "pair space times following content", "anchors": ["src/iges/iges.cpp:readGlobals"]}
{"id": "C17", "title": "Unit conversion is exact in the factor and idempotent", "statement": "Converting a model from unit A to unit B multiplies every length by mm(A)/mm(B), converting to the current unit changes nothing, and converting A to B to C equals A to C; ratios, normals, angles and counts are unchanged.", "quantifier": "all unit pairs and all entity contents", "why_tests_cant": "all models and unit sequences", "anchors": ["src/iges/iges.cpp:ConvertUnits", "src/entities/*:rescale"]}
{"id": "C18", "title": "Changing the model scale keeps resolution and geometry consistent", "statement": "After ChangeModelScale(s) every length and the minimum resolution have been multiplied by the same factor.", "quantifier": "all scales and models", "why_tests_cant": "continuum", "anchors": ["src/iges/iges.cpp:ChangeModelScale"]}
{"id": "C19", "title": "Imported models are normalised to scale one", "statement": "After a successful read all geometry is expressed at model scale 1.0 regardless of which optional global parameters the file omits.", "quantifier": "all files", "why_tests_cant": "which trailing optional parameters are omitted changes the control flow", "anchors": ["src/iges/iges.cpp:readGlobals"]}
{"id": "C20", "title": "References are symmetric", "statement": "After any sequence of attach, detach, replace and delete operations through the API, entity X is in the list of users of Y as often as X actually refers to Y; nobody refers to or is referred by a deleted entity.", "quantifier": "all histories of API operations over any number of entities", "why_tests_cant": "unbounded histories", "anchors": ["src/entities/iges_entity.cpp:addReference", "src/entities/iges_entity.cpp:delReference", "src/entities/iges_entity.cpp:unlink", "src/entities/iges_entity.cpp:~IGES_ENTITY"]}
{"id": "C21", "title": "Deleting an entity leaves no dangling pointer", "statement": "When an entity is destroyed, every entity that referred to it no longer does, every entity it referred to no longer lists it as a user, and every registered validity flag reads false.", "quantifier": "all reference graphs and deletion orders", "why_tests_cant": "all graphs", "anchors": ["src/entities/iges_entity.cpp:~IGES_ENTITY", "src/entities/entity*.cpp:unlink"]}
{"id": "C22", "title": "Validity flags track the life of the object", "statement": "A registered flag is true exactly while the object is alive and the flag attached; attaching the same flag twice registers it once; detaching stops updates; no flag is written after it was detached.", "quantifier": "all sequences of attach/detach/destroy", "why_tests_cant": "unbounded histories with aliasing", "anchors": ["src/entities/iges_entity.cpp:AttachValidFlag", "src/entities/iges_entity.cpp:DetachValidFlag", "src/iges/iges.cpp:AttachValidFlag"]}
{"id": "C23", "title": "A model never holds the same entity twice", "statement": "After any sequence of NewEntity/AddEntity/UnlinkEntity/DelEntity the model's entity list has no duplicates, adding an entity already present is harmless, and removing it removes exactly that one.", "quantifier": "all operation sequences", "why_tests_cant": "unbounded histories", "anchors": ["src/iges/iges.cpp:AddEntity", "src/iges/iges.cpp:DelEntity", "src/iges/iges.cpp:UnlinkEntity", "src/iges/iges.cpp:NewEntity"]}
{"id": "C24", "title": "Culling removes exactly the unusable entities", "statement": "Cull leaves a list in which no remaining entity is orphaned or of unsupported type, keeps every entity that is needed by a kept one, keeps relative order, and terminates.", "quantifier": "all entity graphs", "why_tests_cant": "cascading deletion depends on the graph", "anchors": ["src/iges/iges.cpp:Cull"]}
{"id": "C25", "title": "A failed read leaves an empty model; a read into a non-empty model is refused", "statement": "Read refuses to load into a model that already has entities; after a failed read the model holds no entities.", "quantifier": "all files and model states", "why_tests_cant": "every failure point", "anchors": ["src/iges/iges.cpp:Read"]}
{"id": "C26", "title": "Write never destroys an existing file unless asked", "statement": "With overwrite disabled, Write on an existing path returns false and the file is unchanged; a model with no entities is never written.", "quantifier": "all models, paths, file-system states", "why_tests_cant": "all states", "anchors": ["src/iges/iges.cpp:Write"]}
{"id": "C27", "title": "A reference cannot be counted twice", "statement": "Registering the same user twice on an entity leaves a single registration and reports the duplicate; removing it once removes it; removing an absent one reports failure and changes nothing.", "quantifier": "all reference lists", "why_tests_cant": "all list contents and positions", "anchors": ["src/entities/iges_entity.cpp:addReference", "src/entities/iges_entity.cpp:delReference"]}
{"id": "C28", "title": "An entity does not refer to itself", "statement": "Self references in a Directory Entry (structure, line font, level, view, transform, label, colour) read from a file are handled without undefined behaviour, and no API call can create one.", "quantifier": "all files and calls", "why_tests_cant": "all files", "anchors": ["src/entities/iges_entity.cpp:associate"]}
{"id": "C29", "title": "Circular arc, line, conic and plane-like parameter lists round trip", "statement": "For entities 100, 104, 110, 124, 154, 164 writing the parameters and reading them back yields the same values in the same roles.", "quantifier": "all parameter values", "why_tests_cant": "continuum; field order errors", "anchors": ["src/entities/entity100.cpp", "src/entities/entity104.cpp", "src/entities/entity110.cpp", "src/entities/entity124.cpp", "src/entities/entity154.cpp", "src/entities/entity164.cpp"]}
{"id": "C30", "title": "Pointer-list entities round trip", "statement": "For entities 102, 142, 144, 308, 402-like lists, 408, 504, 508, 510, 514, 186, 502 the parameter list written for any contents is read back as the same contents.", "quantifier": "all list lengths and contents", "why_tests_cant": "unbounded lists", "anchors": ["src/entities/entity102.cpp", "src/entities/entity142.cpp", "src/entities/entity144.cpp", "src/entities/entity308.cpp", "src/entities/entity508.cpp", "src/entities/entity186.cpp"]}
{"id": "C31", "title": "Boolean trees round trip", "statement": "Any boolean tree built through the API is written in post-order form that is read back as the same tree.", "quantifier": "all trees", "why_tests_cant": "unbounded depth", "anchors": ["src/entities/entity180.cpp:format", "src/entities/entity180.cpp:readPD"]}
{"id": "C32", "title": "A boolean tree accepts only well-formed expressions", "statement": "A tree reported complete evaluates to exactly one solid: no operator underflows and nothing is left over.", "quantifier": "all operation sequences", "why_tests_cant": "unbounded sequences", "anchors": ["src/entities/entity180.cpp:AddArg", "src/entities/entity180.cpp:AddOp"]}
{"id": "C33", "title": "NURBS curve and surface data round trip with consistent sizes", "statement": "After any successful or failed definition call, the sizes reported by a NURBS entity agree with its knot, weight and control-point data, and writing then reading yields the same data.", "quantifier": "all orders, knot vectors, weights", "why_tests_cant": "unbounded sizes, all failure points", "anchors": ["src/entities/entity126.cpp", "src/entities/entity128.cpp"]}
{"id": "C34", "title": "Composite curves stay continuous", "statement": "Segments are accepted only if each starts where the previous one ends, so an accepted composite curve is connected from start to end.", "quantifier": "all segment sequences", "why_tests_cant": "unbounded sequences", "anchors": ["src/entities/entity102.cpp:AddSegment"]}
{"id": "C35", "title": "Subfigure nesting depth is correct and finite", "statement": "The depth written for a subfigure definition is one more than the largest depth of the definitions it instantiates, and the API cannot create a circular definition.", "quantifier": "all definition graphs", "why_tests_cant": "all graphs", "anchors": ["src/entities/entity308.cpp:getDepthLevel", "src/entities/entity308.cpp:addReference"]}
{"id": "C36", "title": "Transform composition behaves as function composition", "statement": "Applying the product of two transforms to a point equals applying the second then the first; composition is associative with identity; the overall transform of an entity is the product along its chain.", "quantifier": "all transforms and points", "why_tests_cant": "continuum", "anchors": ["src/geom/mcad_elements.cpp", "src/entities/entity124.cpp:GetTransformMatrix"]}
{"id": "C37", "title": "Transformation matrix forms are restricted", "statement": "Only forms 0, 1, 10, 11, 12 of entity 124 are accepted.", "quantifier": "all integers", "why_tests_cant": "all integers", "anchors": ["src/entities/entity124.cpp:readDE"]}
{"id": "C38", "title": "Conic classification follows the sign of the invariants", "statement": "Form 1, 2 or 3 is reported exactly for ellipse, hyperbola and parabola according to the IGES determinants and the form is invariant under multiplying the equation by a non-zero constant.", "quantifier": "all coefficient tuples", "why_tests_cant": "continuum", "anchors": ["src/entities/entity104.cpp:getForm"]}
{"id": "C39", "title": "Unit conversion keeps conic end points on the conic", "statement": "If the end points satisfy the conic equation before unit conversion they do so afterwards.", "quantifier": "all conics and factors", "why_tests_cant": "continuum", "anchors": ["src/entities/entity104.cpp:rescale"]}
{"id": "C40", "title": "Radius and height of a cylinder are repaired independently", "statement": "Reading a right circular cylinder whose radius is below the resolution repairs the radius and leaves the height as read.", "quantifier": "all values", "why_tests_cant": "continuum", "anchors": ["src/entities/entity154.cpp:readPD"]}
{"id": "C41", "title": "Vertex-list sharing is counted correctly", "statement": "An edge list keeps a vertex list registered exactly as long as at least one edge uses it.", "quantifier": "all edge-add sequences", "why_tests_cant": "unbounded histories", "anchors": ["src/entities/entity504.cpp:addVertexList", "src/entities/entity504.cpp:delVertexList"]}
{"id": "C42", "title": "Setter/getter agreement", "statement": "A successful setter of level, line font, colour, view, label association, label, subscript, line weight is observed by the corresponding getter.", "quantifier": "all values and previous states", "why_tests_cant": "all state/argument pairs", "anchors": ["src/entities/iges_entity.cpp:SetColor", "src/entities/iges_entity.cpp:GetColorEntity", "src/entities/iges_entity.cpp:SetView", "src/entities/iges_entity.cpp:SetLabelAssoc", "src/entities/iges_entity.cpp:SetLineWeightNum", "src/entities/iges_entity.cpp:SetLabel"]}
{"id": "C43", "title": "Comments and optional pointers survive a write and a read", "statement": "Comments and optional (associativity/property) pointers attached to an entity are written as legal records and read back unchanged.", "quantifier": "all comments and pointer lists", "why_tests_cant": "unbounded lists", "anchors": ["src/entities/iges_entity.cpp:formatComments", "src/entities/iges_entity.cpp:readComments", "src/entities/iges_entity.cpp:formatExtraParams", "src/entities/iges_entity.cpp:readExtraParams"]}
{"id": "C44", "title": "Start-section text is kept", "statement": "Every text accepted by AddToHeader of at most 72 columns is kept in the header, in order, and written as one S record each; longer text is split without loss.", "quantifier": "all texts", "why_tests_cant": "length boundaries", "anchors": ["src/iges/iges.cpp:AddToHeader", "src/iges/iges.cpp:writeStart"]}
{"id": "C45", "title": "Unit names are reported for the unit they belong to", "statement": "GetUnitName(u) is the standard name of u for every unit.", "quantifier": "all unit codes", "why_tests_cant": "boundary codes", "anchors": ["src/iges/iges.cpp:GetUnitName"]}
{"id": "C46", "title": "Generated part and assembly names are unique", "statement": "Successive calls to the part-name or assembly-name generator never return the same name.", "quantifier": "all call sequences", "why_tests_cant": "unbounded histories", "anchors": ["src/iges/iges.cpp:GetNewPartName", "src/iges/iges.cpp:GetNewAssemblyName"]}
{"id": "C47", "title": "Global parameters survive a write and a read", "statement": "Each global parameter set through the API is found unchanged after writing and reading.", "quantifier": "all parameter values", "why_tests_cant": "26 parameters with defaults", "anchors": ["src/iges/iges.cpp:writeGlobals", "src/iges/iges.cpp:readGlobals"]}
{"id": "C48", "title": "File-path queries are total and consistent", "statement": "For every path the base name, extension and file name queries return without exception, file name = base name + '.' + extension when there is an extension, and after SetExtension(e) the extension is e.", "quantifier": "all strings", "why_tests_cant": "all strings and call orders", "anchors": ["src/iges/mcad_utils.cpp:GetBaseName", "src/iges/mcad_utils.cpp:GetExtension", "src/iges/mcad_utils.cpp:SetExtension", "src/iges/mcad_utils.cpp:Append"]}
{"id": "C49", "title": "Path separators are normalised", "statement": "After SetPath no foreign separator remains and every other character is unchanged.", "quantifier": "all strings", "why_tests_cant": "all strings", "anchors": ["src/iges/mcad_utils.cpp:makePathNative"]}
{"id": "C50", "title": "Wrapper handles are never stale", "statement": "A wrapper object returns false/NULL from every query once the wrapped entity or model is gone and never dereferences it; re-attachment requires the same type.", "quantifier": "all interleavings of wrapper and library operations", "why_tests_cant": "unbounded histories", "anchors": ["src/dllapi/dll_iges_entity.cpp", "src/dllapi/dll_iges.cpp"]}
{"id": "C51", "title": "Point matching is symmetric and tolerant exactly to the resolution", "statement": "Two points match iff they are no further apart than about sqrt(3) times the resolution; matching is reflexive and symmetric.", "quantifier": "all points and tolerances", "why_tests_cant": "continuum", "anchors": ["src/geom/mcad_helpers.cpp:PointMatches"]}
{"id": "C52", "title": "Export moves every entity exactly once", "statement": "Exporting a model into another transfers all of its entities (each once) and leaves their references intact.", "quantifier": "all models", "why_tests_cant": "all graphs", "anchors": ["src/iges/iges.cpp:Export"]}
{"id": "C53", "title": "Computed normals are unit vectors perpendicular to the face", "statement": "The normal computed from three points has length one (to the documented tolerance) and is perpendicular to both edges whenever the points span a triangle; a normalised vector keeps its direction.", "quantifier": "all triples of points", "why_tests_cant": "continuous domain with thresholds", "anchors": ["src/geom/mcad_helpers.cpp:CalcNormal", "src/geom/mcad_helpers.cpp:CheckNormal"]}
{"id": "C54", "title": "An entity belongs to one model and is destroyed once", "statement": "After any sequence of operations on models and entities no two models hold the same entity, an entity reports the model that holds it, an entity that becomes used by an entity of a model is held by that model, and destroying a model destroys each of its entities exactly once and no other.", "quantifier": "all operation sequences on any number of models", "why_tests_cant": "unbounded histories; double deletion is undefined behaviour", "anchors": ["src/iges/iges.cpp:AddEntity", "src/iges/iges.cpp:UnlinkEntity", "src/iges/iges.cpp:Clear", "src/iges/iges.cpp:~IGES", "src/entities/entity122.cpp:SetDE"]}
{"id": "C55", "title": "A written file is read back as the same model", "statement": "For every model with legal contents, if Write succeeds then Read of the resulting text into an empty model succeeds and yields the same start text, the same global data, and the same entities in the same order, each with the same directory attributes, pointers, parameter data and optional pointers.", "quantifier": "all legal models: any number and mix of entities, any start text and global data", "why_tests_cant": "unbounded number of entities and free text; section boundaries, sequence numbers and line counts interact", "anchors": ["src/iges/iges.cpp:Read", "src/iges/iges.cpp:Write", "src/iges/iges.cpp:readDE", "src/iges/iges.cpp:readPD", "src/iges/iges.cpp:readTS", "src/entities/iges_entity.cpp:writeDE"]}
{"id": "C56", "title": "After Read the entities point at what the file says", "statement": "After a successful Read every entity of the file exists and its pointers (directory entry, optional pointers, and those of its parameter data) lead to exactly the entities whose numbers its record states, in order. Only these are left out: directory pointers the entity type has no use for, directory pointers to entities of unknown type, and further uses of a curve in one composite curve.", "quantifier": "all files whose records can be read, of any size, and all orders of the entities in them", "why_tests_cant": "unbounded number of entities and pointers between them; entities are linked in file order and composite curves link others ahead of their turn", "anchors": ["src/iges/iges.cpp:Read", "src/entities/iges_entity.cpp:associate", "src/entities/entity102.cpp:associate", "src/entities/entity144.cpp:associate", "src/entities/entity180.cpp:associate", "src/entities/entity504.cpp:associate", "src/entities/entity508.cpp:associate", "src/entities/entity510.cpp:associate"]}
{"id": "C57", "title": "After Read the users of an entity are those that point at it", "statement": "After a successful Read an entity lists another one as a user once for every pointer of that one to it, so that deleting or changing entities of a model that was read is as safe as for a model built by calls.", "quantifier": "all files whose records can be read", "why_tests_cant": "unbounded number of entities and pointers", "anchors": ["src/entities/iges_entity.cpp:addReference", "src/entities/iges_entity.cpp:associate", "src/entities/entity514.cpp:associate"]}
{"id": "C58", "title": "No file makes Read or the following Clear undefined", "statement": "Whatever numbers the records of a file hold, linking the entities is defined: it succeeds or reports failure. In both cases all entities are still there and clearing the model is defined.", "quantifier": "all files whose records can be read", "why_tests_cant": "arbitrary, possibly hostile input; the outcome is memory corruption", "anchors": ["src/entities/iges_entity.cpp:associate", "src/entities/entity504.cpp:associate", "src/entities/entity508.cpp:~IGES_ENTITY_508", "src/iges/iges.cpp:Clear"]}
{"id": "C59", "title": "Read accepts only pointers to entities of a suitable type", "statement": "If Read succeeds, every number in the file that stands for a pointer leads to an entity of the file whose type is allowed there: a shell has faces, a face a surface and loops, a solid shells, an edge a curve and vertices that exist, an instance a subfigure, a transformation pointer a transformation, a colour pointer a colour, and so on.", "quantifier": "all files whose records can be read", "why_tests_cant": "arbitrary input", "anchors": ["src/entities/iges_entity.cpp:associate", "src/entities/entity120.cpp:associate", "src/entities/entity142.cpp:associate", "src/entities/entity144.cpp:associate", "src/entities/entity408.cpp:associate", "src/entities/entity514.cpp:associate"]}
{"id": "C60", "title": "Read accepts every file whose pointers are in order", "statement": "If the records of a file can be read and their pointers are in order (each leads to an entity of a type allowed there, required pointers are present, no entity refers to another one twice, to itself or to one that refers to it), Read succeeds. Every entity then has exactly the pointers of its record, and every entity's list of users agrees with them. In particular the pointers of a legal model survive Write and Read.", "quantifier": "all files with well-formed records, of any number of entities; all legal models for the last sentence", "why_tests_cant": "the graph of entities has any size and shape", "anchors": ["src/iges/iges.cpp:Read", "src/entities/iges_entity.cpp:associate", "src/entities/entity102.cpp:associate", "src/entities/entity504.cpp:associate", "src/entities/entity508.cpp:associate"]}
{"id": "C61", "title": "A planar segment is the set of points its definition says", "statement": "A segment made from two points is the straight line between them; one made from a centre, two points and a sense is the arc from the first to the second point about the centre in that sense; if the points match it is the full circle. Definitions are accepted exactly when the points are in the plane, do not coincide and are equally far from the centre (within 1e-8). The bounding box contains all points of the segment and no side of it can be moved inwards; the midpoint is on the segment and equally far from both ends; the length is the length of the point set; reversing keeps the points and the length and exchanges the ends. This also holds for all segments obtained by reversing and splitting.", "quantifier": "all segments with real coordinates, made by any sequence of definitions, reversals and splits", "why_tests_cant": "continuous domain; the box of an arc depends on its angles in many cases", "anchors": ["src/geom/mcad_segment.cpp:SetParams", "src/geom/mcad_segment.cpp:GetBoundingBox", "src/geom/mcad_segment.cpp:GetMidpoint", "src/geom/mcad_segment.cpp:GetLength", "src/geom/mcad_segment.cpp:reverse"]}
{"id": "C62", "title": "Intersections of two circles", "statement": "Two circles are reported to meet exactly when they cross; the two points reported are exactly the common points, in counterclockwise order about the first circle from the direction of the X axis. If they are not reported to meet, the flag tells the truth: no common points, touching, one inside the other, or identical.", "quantifier": "all pairs of circles", "why_tests_cant": "continuous domain", "anchors": ["src/geom/mcad_segment.cpp:GetIntersections", "src/geom/mcad_segment.cpp:checkCircles", "src/geom/mcad_segment.cpp:calcCircleIntercepts"]}
{"id": "C63", "title": "Intersections of two lines", "statement": "If two line segments that are not parallel share a point, that point is reported, it is the only one, and the flag says whether it is an end point; if they share none, none is reported. Parallel segments on different straight lines are reported not to meet, overlapping segments are reported to share an edge.", "quantifier": "all pairs of lines", "why_tests_cant": "continuous domain", "anchors": ["src/geom/mcad_segment.cpp:GetIntersections", "src/geom/mcad_segment.cpp:checkLines"]}
{"id": "C64", "title": "Intersections that involve arcs", "statement": "For a circle or arc and a line, an arc and a circle, and two arcs, in either order, exactly the common points are reported, and the result is true exactly when there is one. The answer does not depend on which of the two segments is asked.", "quantifier": "all pairs of segments one of which is an arc, or a circle and a line", "why_tests_cant": "continuous domain; the answer depends on angles about two centres", "anchors": ["src/geom/mcad_segment.cpp:GetIntersections", "src/geom/mcad_segment.cpp:checkArcs", "src/geom/mcad_segment.cpp:checkArcLine"]}
{"id": "C65", "title": "Splitting a segment loses nothing and adds nothing", "statement": "Splitting a segment at one or two of its points (two for a circle) succeeds unless all of them are its ends. The parts have exactly the points of the segment, overlap in end points only, together have its length, run from its start to its end one after the other in its sense, and each is a line or arc of the same straight line or circle.", "quantifier": "all segments made by any sequence of definitions, reversals and splits; all lists of points", "why_tests_cant": "continuous domain, arbitrary histories of splits", "anchors": ["src/geom/mcad_segment.cpp:Split", "src/geom/mcad_segment.cpp:splitArc", "src/geom/mcad_segment.cpp:splitCircle", "src/geom/mcad_segment.cpp:splitLine"]}
{"id": "C66", "title": "Parameters a record leaves out get their defaults", "statement": "Reading a record in which optional parameters are left out, either by empty fields or by ending the record early, gives the same entity as the record with the default values of the standard written out: centre (0,0,0) and axis (0,0,1) of a cylinder, direction (0,0,1) of an extrusion, scale 1 of an instance.", "quantifier": "all records of these types with any combination of parameters left out", "why_tests_cant": "many combinations of empty and missing fields", "anchors": ["src/entities/entity154.cpp:readPD", "src/entities/entity164.cpp:readPD", "src/entities/entity408.cpp:readPD", "src/iges/iges_io.cpp:ParseReal"]}
{"id": "C67", "title": "Outlines drawn segment by segment", "statement": "Adding a segment to an outline succeeds exactly when the outline is not closed and the segment is a circle added to an empty outline, or a line or arc that starts where the last one ends; otherwise the outline is unchanged. An outline never has a gap, is closed exactly when it is a circle or its last segment ends where its first one starts, and then it accepts nothing more. It has exactly the points of the segments that were accepted. A closed outline runs counterclockwise whichever way it was drawn, and its bounding box is a square with integral corners and even side that contains it.", "quantifier": "all sequences of calls with any segments", "why_tests_cant": "arbitrary histories over a continuous domain", "anchors": ["src/geom/mcad_outline.cpp:AddSegment", "src/geom/mcad_outline.cpp:IsContiguous", "src/geom/mcad_outline.cpp:adjustBoundingBox"]}
{"id": "C68", "title": "Points inside an outline", "statement": "For a closed outline and a point, IsInside reports without error whether the point is on or inside the outline by the even-odd rule; for a circle, whether the point is at most the radius away from the centre. It reports an error exactly when the outline is not closed.", "quantifier": "all closed outlines of lines and arcs, or a circle, and all points", "why_tests_cant": "a continuous domain of points and shapes, and the answer depends on coincidences of heights that samples miss", "anchors": ["src/geom/mcad_outline.cpp:IsInside"]}
{"id": "C69", "title": "The vertical walls of a board", "statement": "When GetVerticalSurface returns true, the surfaces it appended are exactly the points of the outline, holes and cutouts between the two heights; the boundary of each surface closes and lies on the surface; all surfaces face away from the board. It succeeds whenever the outline is closed and the two heights differ.", "quantifier": "all closed outlines, holes and cutouts made of lines, arcs and circles, and all pairs of heights", "why_tests_cant": "a continuous domain of arcs, whose angles fall into many cases of splitting at half turns, times both directions", "anchors": ["src/geom/iges_geom_pcb.cpp:GetVerticalSurface", "src/geom/iges_geom_pcb.cpp:GetSegmentWall", "src/geom/geom_cylinder.cpp:SetParams", "src/geom/geom_cylinder.cpp:Instantiate", "src/geom/geom_wall.cpp:Instantiate"]}
{"id": "C70", "title": "The boundaries of the faces of a board", "statement": "When GetTrimmedPlane returns true, the outer boundary of the face it made is the outline and the inner boundaries are the cutouts and holes, at the given height, both as curves in space and as curves in the parameter plane of the surface, for the upper and for the lower face; the curves of a segment run from its start to its end.", "quantifier": "all closed outlines, cutouts and holes made of lines, arcs and circles, also those left by splitting and reversing, all heights, both senses", "why_tests_cant": "a continuous domain of arcs with many cases of splitting at half turns, times two representations, two directions and two senses of the face", "anchors": ["src/geom/iges_geom_pcb.cpp:GetTrimmedPlane", "src/geom/iges_geom_pcb.cpp:GetCurves", "src/geom/iges_geom_pcb.cpp:GetCurveOnPlane", "src/geom/iges_geom_pcb.cpp:getCurveArc", "src/geom/iges_geom_pcb.cpp:copArc"]}
{"id": "C71", "title": "Assembling a closed outline from loose segments", "statement": "GetOutline takes segments of the list, each walked from either end, puts them one after the other so that each begins where the one before it ends, and closes the loop, if need be with one straight line; every other segment stays in the list. It starts with the leftmost segment. The segments of a polygon come out as one loop in any order and direction; IsCCW tells the sense of a loop of straight lines. Which loop is found does not depend on the direction in which segments are drawn.", "quantifier": "all lists of lines, arcs and circles, in any order and drawn in any direction", "why_tests_cant": "all orders and directions of any number of segments with real coordinates", "anchors": ["src/idf/idf_common.cpp:GetOutline", "src/idf/idf_common.cpp:IDF_OUTLINE::push", "src/idf/idf_common.cpp:IDF_SEGMENT::SwapEnds", "src/idf/idf_common.cpp:IDF_SEGMENT::MatchesStart"]}
{"id": "C72", "title": "Arcs of IDF outlines", "statement": "An arc given by its ends and the included angle has a centre about which the start turned by the angle is the end, and a radius equal to its distance from both; given by centre, start and angle it ends where the turn ends, to within two millionths of the radius; 360 degrees in either sense give a circle about the first point; GetMinX is the leftmost coordinate of the arc to within two millionths of the radius; SwapEnds gives the arc with the same points walked the other way.", "quantifier": "all end points and centres, all angles from 0.01 to 359.99 degrees in both senses", "why_tests_cant": "a continuous domain with case distinctions on the half turn, and angles that are truncated on the way", "anchors": ["src/idf/idf_common.cpp:IDF_SEGMENT::CalcCenterAndRadius", "src/idf/idf_common.cpp:IDF_SEGMENT::IDF_SEGMENT", "src/idf/idf_common.cpp:IDF_SEGMENT::GetMinX", "src/idf/idf_common.cpp:IDF_SEGMENT::SwapEnds"]}
{"id": "C73", "title": "Lines, words and numbers of an IDF file", "statement": "A line of an IDF file is read as a unique sequence of words: a word is a text between two quote marks, which may contain white space, or a text without white space; an unpartnered quote mark is an error. Blank lines are skipped and white space at the ends of a line is dropped; a line beginning with # is a comment. A word that is a decimal number is read as its value. Texts without quote marks written between quote marks are read back unchanged.", "quantifier": "all texts", "why_tests_cant": "all strings, of any length", "anchors": ["src/idf/idf_helpers.cpp:FetchIDFLine", "src/idf/idf_helpers.cpp:GetIDFString", "src/idf/idf_helpers.cpp:CompareToken"]}
{"id": "C74", "title": "Notes of a board survive writing and reading", "statement": "Any list of notes written to a board file and read back comes out in the same order with the same texts, positions and sizes up to half a unit of the last place written; a second pass changes nothing more. Reading stops at the end of the section.", "quantifier": "all lists of notes with texts free of quote marks and line ends, in millimetres and in thousandths of an inch", "why_tests_cant": "all texts, all numbers and any number of notes", "anchors": ["src/idf/idf_common.cpp:IDF_NOTE::readNote", "src/idf/idf_common.cpp:IDF_NOTE::writeNote", "src/idf/idf_parser.cpp:IDF3_BOARD::readBrdNotes"]}
{"id": "C75", "title": "Drilled holes of a board survive writing and reading", "statement": "Any list of holes made through the API, written to a board file and read back, comes out in the same order with the same plating, owner, kind and reference, and with diameters and positions up to half a unit of the last place written. A hole that is read has a positive diameter not below the least one of the unit.", "quantifier": "all lists of holes, with names free of quote marks and line ends that are not keywords", "why_tests_cant": "all names, all numbers and any number of holes", "anchors": ["src/idf/idf_common.cpp:IDF_DRILL_DATA::read", "src/idf/idf_common.cpp:IDF_DRILL_DATA::write", "src/idf/idf_common.cpp:IDF_DRILL_DATA::IDF_DRILL_DATA"]}
{"id": "C76", "title": "Components of a board survive writing and reading", "statement": "Any set of placed components written to the placement section of a board file and read back is found under the same names, with the same side and status and the same outlines in the same order, each at the same place and angle up to half a unit of the last place written; the holes stay with their components, and components of other names are unchanged.", "quantifier": "all sets of components, any number of outlines each, in millimetres and in thousandths of an inch", "why_tests_cant": "all names, positions and angles and any number of components", "anchors": ["src/idf/idf_parser.cpp:IDF3_COMP_OUTLINE_DATA::readPlaceData", "src/idf/idf_parser.cpp:IDF3_COMP_OUTLINE_DATA::writePlaceData", "src/idf/idf_parser.cpp:IDF3_COMPONENT::WritePlaceData", "src/idf/idf_parser.cpp:IDF3_BOARD::readBrdPlacement"]}
{"id": "C77", "title": "What belongs to the other kind of system cannot be changed", "statement": "In no sequence of calls can a mechanical system change or delete a component, a hole of the board or the board outline that belongs to the electrical system, nor the other way round; refused calls answer false and change nothing. The position of a component can be set only once.", "quantifier": "all sequences of calls", "why_tests_cant": "all histories, of any length, on any number of components", "anchors": ["src/idf/idf_parser.cpp:IDF3_COMPONENT::checkOwnership", "src/idf/idf_parser.cpp:IDF3_BOARD::checkComponentOwnership", "src/idf/idf_parser.cpp:IDF3_BOARD::DelComponent", "src/idf/idf_parser.cpp:IDF3_BOARD::DelBoardDrill", "src/idf/idf_outlines.cpp:BOARD_OUTLINE::CheckOwnership", "src/idf/idf_outlines.cpp:BOARD_OUTLINE::DelOutline"]}
{"id": "C78", "title": "The outline of a board survives writing and reading, and only outlines are accepted", "statement": "A board outline with any number of cutouts written to a board file and read back has the same owner, thickness and segments up to half a unit of the last place written; the first outline comes back counterclockwise and the others clockwise, whichever way they ran. Whatever the text, an outline accepted by the reader is a circle or a closed chain of at least two segments.", "quantifier": "all outlines, all numbers of cutouts and segments; all texts of the section", "why_tests_cant": "all shapes and any number of outlines; all input texts", "anchors": ["src/idf/idf_outlines.cpp:BOARD_OUTLINE::readOutlines", "src/idf/idf_outlines.cpp:BOARD_OUTLINE::writeOutline", "src/idf/idf_outlines.cpp:BOARD_OUTLINE::writeOutlines", "src/idf/idf_outlines.cpp:BOARD_OUTLINE::readData", "src/idf/idf_outlines.cpp:BOARD_OUTLINE::writeData"]}
{"id": "C79", "title": "Keepouts, routing and placement outlines and regions survive writing and reading", "statement": "A keepout, routing outline, placement outline, placement region or other outline written to a board file and read back has the same owner, side or layers, name, height and outline, up to half a unit of the last place written. Whatever the text, an accepted section has closed outlines, at most one where only one is allowed, and only the sides and heights its kind allows.", "quantifier": "all sections of all kinds, all outlines; all texts of the sections", "why_tests_cant": "all shapes, names and heights; all input texts", "anchors": ["src/idf/idf_outlines.cpp:OTHER_OUTLINE::readData", "src/idf/idf_outlines.cpp:OTHER_OUTLINE::writeData", "src/idf/idf_outlines.cpp:ROUTE_OUTLINE::readData", "src/idf/idf_outlines.cpp:ROUTE_OUTLINE::writeData", "src/idf/idf_outlines.cpp:PLACE_OUTLINE::readData", "src/idf/idf_outlines.cpp:PLACE_OUTLINE::writeData", "src/idf/idf_outlines.cpp:GROUP_OUTLINE::readData", "src/idf/idf_outlines.cpp:GROUP_OUTLINE::writeData", "src/idf/idf_helpers.cpp:ParseIDFLayer", "src/idf/idf_helpers.cpp:WriteLayersText"]}
{"id": "C80", "title": "A whole board file survives writing and reading, and sections come in their order", "statement": "A board written to a board file and read back into a new board object has the same name, unit, outline, keepouts, regions, holes, components, notes and comments, up to half a unit of the last place written. Whatever the text, a file without a board outline is refused, nothing but comments may follow the placement section, and reading never removes what was in the board before, except for the outline of the board, which is replaced.", "quantifier": "all boards; all texts of files; all board objects read into", "why_tests_cant": "all combinations of sections, comments and names; all input texts", "anchors": ["src/idf/idf_parser.cpp:IDF3_BOARD::readBrdHeader", "src/idf/idf_parser.cpp:IDF3_BOARD::readBrdSection", "src/idf/idf_parser.cpp:IDF3_BOARD::readBoardFile", "src/idf/idf_parser.cpp:IDF3_BOARD::writeBoardFile", "src/idf/idf_parser.cpp:IDF3_BOARD::WriteFile", "src/idf/idf_parser.cpp:IDF3_BOARD::AddDrill"]}
{"id": "C81", "title": "A library file survives writing and reading, and a board finds its parts again", "statement": "The parts a board uses, written to a library file and read back, have the same class, names, unit, height, outline, comments and properties, up to half a unit of the last place written. A board and its library written and read back give the same board, and every outline of a component is found in the library again. Whatever the text, reading a library file changes no part that was there, and every new part is filed under its unique name, has a class, a name and at most one outline.", "quantifier": "all libraries, all boards using them; all texts of library files; all libraries read into", "why_tests_cant": "all names, shapes and properties; all input texts", "anchors": ["src/idf/idf_outlines.cpp:IDF3_COMP_OUTLINE::readData", "src/idf/idf_outlines.cpp:IDF3_COMP_OUTLINE::writeData", "src/idf/idf_outlines.cpp:IDF3_COMP_OUTLINE::readProperties", "src/idf/idf_parser.cpp:IDF3_BOARD::readLibFile", "src/idf/idf_parser.cpp:IDF3_BOARD::readLibSection", "src/idf/idf_parser.cpp:IDF3_BOARD::writeLibFile", "src/idf/idf_parser.cpp:IDF3_BOARD::ReadFile", "src/idf/idf_parser.cpp:IDF3_BOARD::WriteFile"]}
{"id": "C82", "title": "Cutting a circle out of an outline, or joining one to it, keeps a closed border", "statement": "SubOutline and AddOutline with a circle: when the operation reports success the outline is contiguous again, its border consists of points of the old border and of the circle only, and it is made of lines and arcs that can be operated on again. When it reports failure without an error the outline is as it was. A missing circle, a segment that is no circle and an outline that is not closed are refused.", "quantifier": "all outlines made of lines and arcs or of one circle; all circles", "why_tests_cant": "all outlines and circles, real coordinates; the number and order of segments is not bounded", "anchors": ["src/geom/mcad_outline.cpp:MCAD_OUTLINE::opOutline", "src/geom/mcad_outline.cpp:MCAD_OUTLINE::SubOutline", "src/geom/mcad_outline.cpp:MCAD_OUTLINE::AddOutline", "src/geom/mcad_outline.cpp:MCAD_OUTLINE::IsContiguous", "src/geom/mcad_segment.cpp:MCAD_SEGMENT::Split"]}
{"id": "C83", "title": "Cutting a circle out of an outline takes exactly the disc away; joining adds exactly the disc", "statement": "SubOutline and AddOutline with a circle that crosses the border of the outline: when the operation reports success, the new border runs once, counterclockwise, round its region, and a point that is not on the new border or the circle is inside the new outline exactly if it was inside the old one and is outside the circle (SubOutline), or if it was inside the old one or is inside the circle (AddOutline). So operations can be repeated.", "quantifier": "all outlines made of lines and arcs that run once round their region; all circles; all points of the plane", "why_tests_cant": "all outlines, circles and points, real coordinates; the number of segments is not bounded", "anchors": ["src/geom/mcad_outline.cpp:MCAD_OUTLINE::opOutline", "src/geom/mcad_outline.cpp:MCAD_OUTLINE::SubOutline", "src/geom/mcad_outline.cpp:MCAD_OUTLINE::AddOutline", "src/geom/mcad_segment.cpp:MCAD_SEGMENT::Split"]}
{"id": "C84", "title": "Cutting an outline out of an outline, and joining two outlines, do to the regions what they say", "statement": "SubOutline and AddOutline with another outline: when the operation reports success, the new border runs once, counterclockwise, round its region, and a point on neither of the old borders is inside the new outline exactly if it was inside the one and outside the other (SubOutline), or inside one of them (AddOutline); the segments are in order. When it reports that there is no overlap, both outlines keep their borders and regions. Outlines that are not closed are refused and nothing changes.", "quantifier": "all pairs of outlines made of lines and arcs that run once round their regions; all points of the plane", "why_tests_cant": "all pairs of outlines and points, real coordinates; the numbers of segments are not bounded", "anchors": ["src/geom/mcad_outline.cpp:MCAD_OUTLINE::opOutline", "src/geom/mcad_outline.cpp:MCAD_OUTLINE::SubOutline", "src/geom/mcad_outline.cpp:MCAD_OUTLINE::AddOutline", "src/geom/mcad_outline.cpp:MCAD_OUTLINE::IsInside"]}
{"id": "C85", "title": "A cutout or hole takes its region, and nothing else, out of the board", "statement": "AddCutout with an outline or with a circle: something that is not a closed outline, or not a circle, is refused with the error flag and nothing changes. When overlaps are not to be treated, the cutout or hole is listed as it is. When they are, the cutout is cut out of the board's border if it crosses that, joined to a cutout that it crosses, or listed; in each case, at a point on none of the borders, there is material exactly if there was and the point is not in the new cutout or hole. Cutouts that do not overlap and lie within the board stay so, if the new one does not break the rule by itself.", "quantifier": "all boards with any number of cutouts and holes, all outlines and circles, both values of the flag, all points of the plane", "why_tests_cant": "all boards, cutouts and points, real coordinates; the numbers of cutouts and segments are not bounded", "anchors": ["src/geom/mcad_outline.cpp:MCAD_OUTLINE::AddCutout", "src/geom/mcad_outline.cpp:MCAD_OUTLINE::SubOutline", "src/geom/mcad_outline.cpp:MCAD_OUTLINE::AddOutline", "include/mcad_outline.h:MCAD_OUTLINE"]}
{"id": "C86", "title": "The converted assembly shows every part where the placement section puts it", "statement": "When an IDF board whose parts are all in the library is converted, the IGES assembly gets exactly one instance for each record of the placement section whose part has a model. The instance is labelled with the reference designator of the record, or with one made up for it, it shows the model of the part of the record, and its transform moves the part, without changing its shape or mirroring it, to the position of the record: on the surface of the given side of the board, raised by the mounting offset, and turned counterclockwise by the given angle as seen from that side. A part that reaches up from its mounting plane lies on its side of the board and not within it.", "quantifier": "all placement sections, with any number of records, of any of the accepted formats and units; all libraries, all thicknesses of the board, all points of the parts", "why_tests_cant": "all positions and angles, in real arithmetic; sections of any length, in which several records can be about one component and offsets are then stored relative to the first", "anchors": ["src/idf/idf2igs.cpp:MakeComponents", "src/idf/idf2igs.cpp:calcTransform", "src/idf/idf_parser.cpp:IDF3_COMP_OUTLINE_DATA::readPlaceData", "src/idf/idf_parser.cpp:IDF3_BOARD::readBrdPlacement"]}
{"id": "C87", "title": "An outline of an IDF board keeps all its points when it is converted", "statement": "Each outline that is read from an IDF board file is turned into one outline for the IGES model that has exactly the same points: straight lines, arcs (with their centre, sense of turning and angle) and circles become segments of the same kind with the same ends. An outline that the reader accepted is always converted, and the converted outline is closed.", "quantifier": "all texts of outline sections, all angles and all points of the plane", "why_tests_cant": "the points of an arc are a continuum and the angle is any real number; whether a loop is accepted depends on all its points", "anchors": ["src/idf/idf2igs.cpp:convertOln", "src/idf/idf_outlines.cpp:BOARD_OUTLINE::readOutlines", "src/idf/idf_common.cpp:IDF_SEGMENT", "src/geom/mcad_segment.cpp:MCAD_SEGMENT::SetParams", "src/geom/mcad_outline.cpp:MCAD_OUTLINE::AddSegment"]}
{"id": "C88", "title": "The converted board has material where the IDF file says so: outline less cutouts less every drilled hole", "statement": "When an IDF board is converted, every drilled hole of the file is taken out of the board: holes that overlap each other are gathered into bundles, each of which becomes one cutout that is the union of its holes; holes across the edge of the board or of a cutout change that edge; all others stay round holes. No hole is lost or counted twice. The board that results has material exactly at the points that are inside of the outline of the board, in no cutout and in no drilled hole.", "quantifier": "all boards, with any number of cutouts and of drilled holes of any positions and diameters, overlapping in any pattern; all points", "why_tests_cant": "bundles are connected components of any size and shape found by a loop that erases from the list it runs over; the region is a statement about all points of the plane", "anchors": ["src/idf/idf2igs.cpp:MakeBoard", "src/idf/idf2igs.cpp:convertDrills", "src/idf/idf2igs.cpp:mergeDrills", "src/idf/idf2igs.cpp:bundleDrills", "src/geom/mcad_outline.cpp:MCAD_OUTLINE::AddOutline", "src/geom/mcad_outline.cpp:MCAD_OUTLINE::SubOutline"]}
{"id": "C89", "title": "The body made for a part of an IDF board is the straight solid over its outline", "statement": "The converter gives every component whose outline it can convert a body with walls over exactly the points of the outline in the file, from height 0 to the thickness of the component, a top face and a bottom face bounded by the outline at these heights, and every surface facing outwards. The board gets such a body with the walls and boundaries of its cutouts and holes. Each outline of the OTHER section gets one as well. Surfaces are appended to the caller's list and nothing that was in it is lost.", "quantifier": "all outlines of lines, arcs and circles in any number and position, all thicknesses from 0.001, all boards with any cutouts and holes, all lists of OTHER outlines, all lists handed over", "why_tests_cant": "equality of infinite sets of points and the direction of normals at all points, for outlines of any shape and length", "anchors": ["src/idf/idf2igs.cpp:buildComponent", "src/idf/idf2igs.cpp:MakeBoard", "src/idf/idf2igs.cpp:MakeOtherOutlines", "src/dllapi/dll_iges_geom_pcb.cpp:DLL_IGES_GEOM_PCB::GetVerticalSurface", "src/dllapi/dll_iges_geom_pcb.cpp:DLL_IGES_GEOM_PCB::GetTrimmedPlane", "src/dllapi/dll_iges_geom_pcb.cpp:DLL_IGES_GEOM_PCB::GetCurves"]}
{"id": "C90", "title": "The library file holds exactly the parts that the board uses", "statement": "After any sequence of calls that make, read, change and delete components and their outline records, the library file that is written holds a part if and only if some record that exists refers to it; and no sequence of correct calls deletes a record twice.", "quantifier": "all histories of calls of any length, any number of parts, records and components, all placements and both kinds of system", "why_tests_cant": "the count of users depends on the whole history of constructions, assignments and deletions; tests see a few histories", "anchors": ["src/idf/idf_parser.cpp:IDF3_COMP_OUTLINE_DATA::SetOutline", "src/idf/idf_parser.cpp:IDF3_COMP_OUTLINE_DATA::~IDF3_COMP_OUTLINE_DATA", "src/idf/idf_parser.cpp:IDF3_COMPONENT::DeleteOutlineData", "src/idf/idf_outlines.cpp:IDF3_COMP_OUTLINE::incrementRef", "src/idf/idf_outlines.cpp:IDF3_COMP_OUTLINE::decrementRef", "src/idf/idf_outlines.cpp:IDF3_COMP_OUTLINE::writeData"]}
{"id": "C91", "title": "The entities of a model exist", "statement": "Whatever is called through the handle of a model and through the wrappers of its entities, every entity that the model lists exists and is listed once, so that clearing, writing or destroying the model is defined; a call that is refused changes nothing; and NewAPIEntity adds one entity, the one whose wrapper it returns.", "quantifier": "all programs of calls of the handle and of any number of wrappers, of any length, all entity types", "why_tests_cant": "whether a pointer dangles depends on the whole history of calls; the damage shows only when the model is cleared or written later, if at all", "anchors": ["src/dllapi/dll_iges.cpp:DLL_IGES::NewAPIEntity", "src/dllapi/dll_iges.cpp:DLL_IGES::NewIGESEntity", "src/dllapi/dll_iges.cpp:DLL_IGES::DelEntity", "src/dllapi/dll_iges.cpp:DLL_IGES::Clear", "src/dllapi/dll_iges_entity.cpp:DLL_IGES_ENTITY::DelEntity", "src/dllapi/dll_iges_entity.cpp:DLL_IGES_ENTITY::Attach", "src/iges/iges.cpp:IGES::Clear", "src/iges/iges.cpp:IGES::AddEntity"]}
{"id": "C92", "title": "Global data set through the handle are reported, and found in the file", "statement": "After any program of setters each getter reports the value that was last set and accepted; a setter changes no other attribute; a refused setter changes nothing; and a program that reads the file written afterwards is told the same values.", "quantifier": "all programs of setters of any length, all values, with conversions of units and scale between them", "why_tests_cant": "all histories and all texts; the path through the file depends on every value and on the lengths of all of them", "anchors": ["src/dllapi/dll_iges.cpp:DLL_IGES::SetAuthor", "src/dllapi/dll_iges.cpp:DLL_IGES::SetMinResolution", "src/dllapi/dll_iges.cpp:DLL_IGES::SetMaxLineWidthGrad", "src/dllapi/dll_iges.cpp:DLL_IGES::GetProductID_ReceivingSystem", "src/dllapi/dll_iges.cpp:DLL_IGES::SetProductID_ReceivingSystem", "src/iges/iges.cpp:IGES::writeGlobals", "src/iges/iges.cpp:IGES::readGlobals"]}
{"id": "C93", "title": "Exporting a model keeps the sizes of its entities and the order of its line weights", "statement": "After a model was exported into another one, every entity has the same real size as before, in the units and the scale of its new model, and a line weight in the range of the new model; weights keep their order; the new definition is named after the file of the exported model.", "quantifier": "all reachable states, all pairs of models, all units, scales, numbers of gradations, weights and coordinates", "why_tests_cant": "all combinations of units, scales and entities; the answers of the conversions are ignored, so a failure is silent", "anchors": ["src/iges/iges.cpp:IGES::Export", "src/iges/iges.cpp:IGES::ChangeModelScale", "src/iges/iges.cpp:IGES::ConvertUnits", "src/iges/iges.cpp:IGES::GetNewPartName", "src/iges/iges.cpp:IGES::GetNewAssemblyName"]}
{"id": "C94", "title": "A board object can be used for several files", "statement": "After Clear, or after a ReadFile that failed, whatever was in the board before, the next ReadFile succeeds exactly when it succeeds with a new board object, and gives the same board; a board written after Clear has nothing of what was in it before.", "quantifier": "all sequences of successful and failed readings and of Clear; all contents of a board; all files", "why_tests_cant": "all histories of the object and all places in a file at which reading can stop", "anchors": ["src/idf/idf_parser.cpp:IDF3_BOARD::Clear", "src/idf/idf_parser.cpp:IDF3_BOARD::ReadFile", "src/idf/idf_parser.cpp:IDF3_BOARD::IDF3_BOARD", "src/idf/idf_outlines.cpp:BOARD_OUTLINE::readOutlines"]}
{"id": "C95", "title": "Component outlines loaded from files of their own", "statement": "GetComponentOutline with a file name returns the outline in the file, which is then in the board. Asked again for the same file it returns the same outline and changes nothing. A file with another outline of a name the board has already is refused. Outlines in the board are never changed or removed, and a call that returns NULL changes nothing.", "quantifier": "all contents of files, also changing between calls; all sequences of calls, mixed with board and library files", "why_tests_cant": "all texts of part files and all histories of the board", "anchors": ["src/idf/idf_parser.cpp:IDF3_BOARD::GetComponentOutline", "src/idf/idf_parser.cpp:MatchCompOutline", "src/idf/idf_parser.cpp:IDF3_BOARD::GetComponentOutlineByID"]}
{"id": "C96", "title": "A slot added to a board has the shape that was asked for", "statement": "AddSlot with a width and a length that are not too small succeeds and adds one outline to the board: a closed border, walked clockwise as IDF has it for cutouts, whose points are exactly those at half the width from the straight line of the given length and direction through the given middle. A slot that is too narrow or too short is refused and the board stays as it is.", "quantifier": "all widths, lengths, directions and positions; all boards", "why_tests_cant": "all real widths, lengths, angles and positions, including the rounding of the angle of the caps", "anchors": ["src/idf/idf_parser.cpp:IDF3_BOARD::AddSlot", "src/idf/idf_common.cpp:IDF_SEGMENT::IDF_SEGMENT", "src/idf/idf_common.cpp:IDF_OUTLINE::push", "src/idf/idf_common.cpp:IDF_OUTLINE::IsCCW"]}
{"id": "C97", "title": "What a NURBS curve reports about itself is true of the curve", "statement": "After SetNURBSData succeeds, GetStartPoint and GetEndPoint give the points of the curve at the two ends of its parameter range; the curve is reported to be plane with a normal n exactly if it is, and then all its points lie in the plane through its first control point perpendicular to n; it is reported to be closed if it ends where it starts.", "quantifier": "all degrees, knot vectors, weighted control points and parameter ranges; all parameters of the curve", "why_tests_cant": "all degrees and numbers of control points, and all real parameters on each curve", "anchors": ["src/entities/entity126.cpp:IGES_ENTITY_126::SetNURBSData", "src/entities/entity126.cpp:IGES_ENTITY_126::GetStartPoint", "src/entities/entity126.cpp:IGES_ENTITY_126::GetEndPoint", "src/entities/entity126.cpp:IGES_ENTITY_126::hasUniquePlane", "src/entities/entity126.cpp:IGES_ENTITY_126::GetNormal", "src/geom/mcad_helpers.cpp:CalcNormal"]}
{"id": "C98", "title": "Ends of curves with and without transform, and closed curves", "statement": "Asking an arc, conic, line, NURBS or composite curve for an end point with its transform gives the point without it, moved by the transform. A curve is reported to be closed exactly if its two ends meet to within the resolution of the model; a composite curve of one segment is closed if that segment is.", "quantifier": "all data of the curves, all lists of segments, all transforms that keep distances", "why_tests_cant": "all positions, transforms and numbers of segments", "anchors": ["src/entities/entity100.cpp:IGES_ENTITY_100::IsClosed", "src/entities/entity104.cpp:IGES_ENTITY_104::IsClosed", "src/entities/entity110.cpp:IGES_ENTITY_110::GetStartPoint", "src/entities/entity102.cpp:IGES_ENTITY_102::GetStartPoint", "src/entities/entity102.cpp:IGES_ENTITY_102::GetEndPoint", "src/entities/entity102.cpp:IGES_ENTITY_102::IsClosed"]}
{"id": "C99", "title": "Lists handed out are current", "statement": "A query that hands out a list (members of a subfigure definition, holes of a trimmed surface, comments of an entity, header lines of a model, edges, bounds) gives exactly the present contents in their order with their number, and fails exactly if there are none, whatever additions, deletions and queries were made before.", "quantifier": "all histories of additions, deletions and queries, all contents, all addresses an allocator may choose", "why_tests_cant": "all histories; whether an array kept from an earlier query is stale depends on the order of calls", "anchors": ["src/entities/entity308.cpp:IGES_ENTITY_308::GetDEList", "src/entities/entity144.cpp:IGES_ENTITY_144::GetPTIList", "src/entities/iges_entity.cpp:IGES_ENTITY::GetComments", "src/iges/iges.cpp:IGES::GetHeaders", "src/entities/entity504.cpp:IGES_ENTITY_504::GetEdges", "src/entities/entity510.cpp:IGES_ENTITY_510::GetBounds", "src/dllapi/dll_entity308.cpp:DLL_IGES_ENTITY_308::GetDEList"]}
{"id": "C100", "title": "Setters of outline sections, part names and numbers of an IDF board", "statement": "A keepout, region or other outline section takes only sides, heights and thicknesses that its kind can have, whatever calls are made; a call by the system that does not own it, and any other refused call, changes nothing; one that has been given what its kind needs can be saved and read back. The unique name of a part is always made of its present names, and scale, precision and versions of a board stay in their ranges.", "quantifier": "all kinds of section, all histories of calls with all arguments, both kinds of system", "why_tests_cant": "all histories and argument values", "anchors": ["src/idf/idf_outlines.cpp:OTHER_OUTLINE::SetSide", "src/idf/idf_outlines.cpp:PLACE_OUTLINE::SetSide", "src/idf/idf_outlines.cpp:PLACE_OUTLINE::SetMaxHeight", "src/idf/idf_outlines.cpp:GROUP_OUTLINE::SetSide", "src/idf/idf_outlines.cpp:ROUTE_OUTLINE::SetLayers", "src/idf/idf_outlines.cpp:BOARD_OUTLINE::SetThickness", "src/idf/idf_outlines.cpp:IDF3_COMP_OUTLINE::GetUID", "src/idf/idf_parser.cpp:IDF3_BOARD::SetUserPrecision"]}
{"id": "C101", "title": "What is set through the handle of an entity is what is read back", "statement": "For arcs, conics, lines, tabulated cylinders, surfaces of revolution, transforms, curves on surfaces, subfigures, colours, instances and properties: after any calls through a valid handle every getter returns the value that was given last in an accepted call, and everything not given is as it was; a setter is refused exactly if its arguments are out of range (or NULL where they must not be) and then changes nothing; a handle that is not valid answers false to everything.", "quantifier": "all eleven classes, all values of the entity, all histories of calls with all arguments, valid and invalid handles", "why_tests_cant": "all values and histories; each pair of setter and getter", "anchors": ["src/dllapi/dll_entity100.cpp:SetCircleCenter", "src/dllapi/dll_entity104.cpp:SetConicParams", "src/dllapi/dll_entity110.cpp:SetLineStart", "src/dllapi/dll_entity120.cpp:SetAngles", "src/dllapi/dll_entity122.cpp:SetGeneratrixEnd", "src/dllapi/dll_entity124.cpp:SetRootTransform", "src/dllapi/dll_entity142.cpp:SetCurvePreference", "src/dllapi/dll_entity308.cpp:SetName", "src/dllapi/dll_entity314.cpp:SetColor", "src/dllapi/dll_entity406.cpp:SetProperty_Name", "src/dllapi/dll_entity408.cpp:SetSubfigParams"]}
{"id": "C102", "title": "Segments and outlines have one owner and are deleted exactly once", "statement": "In any sequence of calls on handles of segments and outlines (make, destroy, detach, attach, add to an outline as segment, hole or cutout, join, subtract), every segment and outline that exists is held by exactly one handle, one outline or the caller who detached it; nothing is deleted twice or used after deletion; an object that is taken by an outline leaves its handle, one that is refused stays with it; and when all handles are gone everything has been deleted.", "quantifier": "all histories of calls, any number of handles and objects, outlines nested to any depth, all answers of the geometric operations", "why_tests_cant": "all interleavings of calls over many handles; leaks and double deletion show only in some histories", "anchors": ["src/dllapi/dll_mcad_outline.cpp:DLL_MCAD_OUTLINE::AddSegment", "src/dllapi/dll_mcad_outline.cpp:DLL_MCAD_OUTLINE::AddCutout", "src/dllapi/dll_mcad_outline.cpp:DLL_MCAD_OUTLINE::~DLL_MCAD_OUTLINE", "src/dllapi/dll_mcad_segment.cpp:DLL_MCAD_SEGMENT::Attach", "src/dllapi/dll_mcad_segment.cpp:DLL_MCAD_SEGMENT::Detach", "src/geom/mcad_outline.cpp:MCAD_OUTLINE::~MCAD_OUTLINE", "src/geom/mcad_outline.cpp:MCAD_OUTLINE::AddCutout"]}
{"id": "C103", "title": "Adding an edge to a loop adds it whole or leaves everything as it was", "statement": "AddEdge on a loop that answers true appends exactly that edge, and pointers, lists of users and the number of uses of each edge list agree as before. When it answers false the loop, its curves and its edge lists are as they were. Deleting an edge or vertex list that a loop uses leaves a loop without the edges on it.", "quantifier": "all models, loops, edges, lists of curves", "why_tests_cant": "all models and all combinations of edges and curves", "anchors": ["src/entities/entity508.cpp:IGES_ENTITY_508::AddEdge", "src/entities/entity508.cpp:IGES_ENTITY_508::addEdge", "src/entities/entity508.cpp:IGES_ENTITY_508::addPCurve", "src/entities/entity508.cpp:IGES_ENTITY_508::delEdge", "src/entities/entity508.cpp:IGES_ENTITY_508::unlink"]}
{"id": "C104", "title": "Labels of entities, and the labels and colours of a converted assembly", "statement": "The label set on an entity is the one reported, and the one found after the model has been written and read. In an assembly converted from IDF every body has one of the colours that were defined, the board has a colour of its own, neighbours in the order of creation differ, and the instances of different components have different labels.", "quantifier": "all texts, all entity classes, all numbers of bodies, all designators", "why_tests_cant": "all texts and numbers of parts", "anchors": ["src/dllapi/dll_iges_entity.cpp:DLL_IGES_ENTITY::SetLabel", "src/dllapi/dll_iges_entity.cpp:DLL_IGES_ENTITY::GetLabel", "src/entities/iges_entity.cpp:IGES_ENTITY::SetLabel", "src/idf/idf2igs.cpp:initColors", "src/idf/idf2igs.cpp:GetComponentColor", "src/idf/idf2igs.cpp:MakeComponents"]}
{"id": "C105", "title": "The merge program puts every part where its input says", "statement": "The result of the merge program has the unit that the input names and, for every position line, one instance of the file named last before it. Every point of the file is first turned about the direction and moved by the offset that the orientation line of the file gives, and then placed by the rule for parts of an IDF board; shapes are kept. Nothing is written when a file that is placed cannot be read.", "quantifier": "all inputs: all numbers and orders of lines, all angles, directions and offsets, all points", "why_tests_cant": "all angles, directions and sequences of lines", "anchors": ["src/tests/test_merge.cpp:main", "src/tests/test_merge.cpp:merge", "src/tests/test_merge.cpp:TPARAMS::GetTransform", "src/tests/test_merge.cpp:parseLine", "src/tests/test_merge.cpp:parseOrient", "src/tests/test_merge.cpp:parseUnit", "src/tests/test_merge.cpp:parseFile"]}
{"id": "C106", "title": "Planes are written, read, scaled and kept", "statement": "A plane entity (type 108) that is written is read back with the same coefficients, bounding curve, symbol position and size. A change of unit or scale moves the plane with the points on it. A plane that was read points to the closed curve its file names, is kept by the clean-up of the model, and can be written and deleted.", "quantifier": "all planes, resolutions, delimiters and optional pointers, all files they are read from, all scale factors", "why_tests_cant": "all numbers and positions in the file", "anchors": ["src/entities/entity108.cpp:IGES_ENTITY_108::format", "src/entities/entity108.cpp:IGES_ENTITY_108::readPD", "src/entities/entity108.cpp:IGES_ENTITY_108::associate", "src/entities/entity108.cpp:IGES_ENTITY_108::rescale", "src/entities/entity108.cpp:IGES_ENTITY_108::isOrphaned", "src/entities/entity108.cpp:IGES_ENTITY_108::~IGES_ENTITY_108"]}
{"id": "C107", "title": "The converter of boards reads and writes the files its argument names and reports success", "statement": "Called with the path of a board file, the converter reads that file and the library beside it, writes the model beside them under the extension igs, never writes to a file it has read, and returns 0 exactly if the model was made and written.", "quantifier": "all arguments (any path, any extension, any separators), all contents of the directory, all outcomes of the steps of a run", "why_tests_cant": "all paths and all combinations of failing steps", "anchors": ["src/idf/idf2igs.cpp:main", "src/idf/idf_parser.cpp:IDF3_BOARD::ReadFile", "src/iges/mcad_utils.cpp:MCAD_FILEPATH::SetExtension", "src/iges/mcad_utils.cpp:MCAD_FILEPATH::GetBaseName"]}
