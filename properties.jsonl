{"id": "C01", "title": "Path escaping round-trips", "statement": "unescape_path(escape_path(p)) returns p and never raises.", "quantifier": "every str p (any code points, surrogates and NULs included, any length)", "why_tests_cant": "the input domain is infinite; a test samples finitely many strings/values", "anchors": ["src/hdf5storage/pathesc.py:escape_path", "src/hdf5storage/pathesc.py:unescape_path"]}
{"id": "C02", "title": "An escaped name cannot navigate", "statement": "escape_path(p) contains no '/' and no NUL, does not start with '.', and is empty only if p is; hence as an HDF5 link name it always denotes one link in the current Group.", "quantifier": "every str p", "why_tests_cant": "the input domain is infinite; a test samples finitely many strings/values", "anchors": ["src/hdf5storage/pathesc.py:escape_path"]}
{"id": "C03", "title": "Path escaping is injective", "statement": "Two different str never escape to the same name, so two different keys or path parts never collide in a Group.", "quantifier": "every pair of str", "why_tests_cant": "the input domain is infinite; a test samples finitely many strings/values", "anchors": ["src/hdf5storage/pathesc.py:escape_path"]}
{"id": "C04", "title": "unescape_path implements the documented escape grammar", "statement": "unescape_path reads left to right: a doubled backslash gives one backslash, \\xYY / \\uYYYY / \\UYYYYYYYY give that code point, every other non-backslash character is itself, and ValueError is raised for any other use of a backslash or a code point above 0x10FFFF.", "quantifier": "every str", "why_tests_cant": "the input domain is infinite; a test samples finitely many strings/values", "anchors": ["src/hdf5storage/pathesc.py:unescape_path", "src/hdf5storage/pathesc.py:_find_invalid_escape_re", "src/hdf5storage/pathesc.py:_find_escapes_re"]}
{"id": "C05", "title": "Separated paths address exactly the named object", "statement": "For a path given as a sequence of non-empty parts, process_path returns the '/'-joined escaped leading parts ('/' if there are none) and the escaped last part; parts such as '..', 'a/b' or NUL never change directory; different part sequences give different (group, target) pairs.", "quantifier": "every non-empty sequence of non-empty str parts", "why_tests_cant": "the input domain is infinite; a test samples finitely many strings/values", "anchors": ["src/hdf5storage/pathesc.py:process_path"]}
{"id": "C06", "title": "String paths are normalised", "statement": "For a str path process_path gives a non-empty group and non-empty target; spelling variants (duplicate slashes, '.' parts, trailing slash, 'x/..') give the same pair; re-processing the joined result is stable.", "quantifier": "every str path", "why_tests_cant": "the input domain is infinite; a test samples finitely many strings/values", "anchors": ["src/hdf5storage/pathesc.py:process_path"]}
{"id": "C07", "title": "The references Group is out of bounds for read and write", "statement": "File.writes / File.reads raise ValueError for every path, in any spelling, that denotes the Group named by group_for_references or anything below it, and for no other path.", "quantifier": "every options value for group_for_references and every path", "why_tests_cant": "the input domain is infinite; a test samples finitely many strings/values", "anchors": ["src/hdf5storage/__init__.py:File.writes", "src/hdf5storage/__init__.py:File.reads"]}
{"id": "C08", "title": "matlab_compatible forces its table", "statement": "Whenever matlab_compatible is True all the options in the documented table hold their MATLAB values.", "quantifier": "every construction and every sequence of option assignments with arbitrary Python values", "why_tests_cant": "it must hold after every finite history of calls; tests run a few", "anchors": ["src/hdf5storage/__init__.py:Options"]}
{"id": "C09", "title": "Options never hold an invalid value", "statement": "After any construction and any sequence of assignments with arbitrary values each option is of its documented type and range (bools, the enumerations, threshold >= 0, 0 <= gzip level <= 9, str names, two-str tuple); invalid assignments leave the option unchanged.", "quantifier": "every construction and sequence of assignments", "why_tests_cant": "it must hold after every finite history of calls; tests run a few", "anchors": ["src/hdf5storage/__init__.py:Options"]}
{"id": "C10", "title": "group_for_references is an absolute non-root path", "statement": "group_for_references is always an absolute POSIX path different from the root.", "quantifier": "every construction and sequence of assignments", "why_tests_cant": "it must hold after every finite history of calls; tests run a few", "anchors": ["src/hdf5storage/__init__.py:Options.group_for_references"]}
{"id": "C11", "title": "Marshaller lookup honours the priority order", "statement": "After any history in which no add/remove/clear call raised, get_marshaller_for_type / _type_string / _matlab_class return the first marshaller, in the priority order of builtin/plugin/user and then list order, that declares the key, and None exactly if no marshaller declares it.", "quantifier": "every set of marshallers, every priority permutation, every key, after every history of add/remove/clear calls", "why_tests_cant": "it must hold after every finite history of calls; tests run a few", "anchors": ["src/hdf5storage/__init__.py:MarshallerCollection"]}
{"id": "C12", "title": "User marshaller set semantics", "statement": "After any history of successful add_marshaller / remove_marshaller / clear_marshallers calls the user marshallers are the ones added and not since removed, without duplicates, in first-addition order; builtin and plugin marshallers are never affected.", "quantifier": "every history of calls", "why_tests_cant": "it must hold after every finite history of calls; tests run a few", "anchors": ["src/hdf5storage/__init__.py:MarshallerCollection.add_marshaller", "src/hdf5storage/__init__.py:MarshallerCollection.remove_marshaller", "src/hdf5storage/__init__.py:MarshallerCollection.clear_marshallers"]}
{"id": "C13", "title": "has_required_modules is truthful", "statement": "A lookup returns has_modules=True only if every module the returned marshaller requires is imported after the call; it returns False only if a required parent module was absent when the collection was last updated or importing a required module failed.", "quantifier": "every module environment, marshaller set and history of updates and lookups, lazy or not", "why_tests_cant": "it must hold after every finite history of calls; tests run a few", "anchors": ["src/hdf5storage/__init__.py:MarshallerCollection._update_marshallers", "src/hdf5storage/__init__.py:MarshallerCollection._import_marshaller_modules"]}
{"id": "C14", "title": "A failed add_marshaller has no effect", "statement": "If add_marshaller raises TypeError the collection behaves afterwards exactly as if the call had not been made.", "quantifier": "every collection and argument list", "why_tests_cant": "it must hold after every finite history of calls; tests run a few", "anchors": ["src/hdf5storage/__init__.py:MarshallerCollection.add_marshaller"]}
{"id": "C15", "title": "The priority argument is validated", "statement": "Construction raises ValueError unless priority is a permutation of builtin, plugin, user.", "quantifier": "every priority sequence", "why_tests_cant": "the input domain is infinite; a test samples finitely many strings/values", "anchors": ["src/hdf5storage/__init__.py:MarshallerCollection.__init__"]}
{"id": "C16", "title": "set_attributes_all sets what it was given", "statement": "After set_attributes_all(target, attributes) every given attribute has the given value, and with discard_others exactly the given ones exist; without it the others are unchanged.", "quantifier": "every pre-existing attribute set and every attributes dict", "why_tests_cant": "the input domain is infinite; a test samples finitely many strings/values", "anchors": ["src/hdf5storage/utilities.py:set_attributes_all"]}
{"id": "C17", "title": "Reference names are fresh", "statement": "next_unused_ref_group_name never returns a name in use in the references Group or one it returned before and used, and never the canonical-empty name 'a'.", "quantifier": "every history of calls, every pre-existing content of the Group, every random stream", "why_tests_cant": "it must hold after every finite history of calls; tests run a few", "anchors": ["src/hdf5storage/utilities.py:LowLevelFile.next_unused_ref_group_name"]}
{"id": "C18", "title": "Object arrays are written element for element", "statement": "write_object_array returns references of the same number as elements, the i-th pointing to the object holding element i (or the canonical empty if the element was discarded), all to distinct new objects, and reading the references back yields the elements in order.", "quantifier": "every object array, nested to any depth, every prior file content", "why_tests_cant": "the input domain is infinite; a test samples finitely many strings/values", "anchors": ["src/hdf5storage/utilities.py:LowLevelFile.write_object_array", "src/hdf5storage/utilities.py:LowLevelFile.read_object_array"]}
{"id": "C19", "title": "String to uint16/uint32 conversion is reversible", "statement": "convert_to_numpy_str(convert_numpy_str_to_uintNN(s), length=len(s)) equals s.", "quantifier": "every numpy str scalar/array without trailing NULs", "why_tests_cant": "the input domain is infinite; a test samples finitely many strings/values", "anchors": ["src/hdf5storage/utilities.py:convert_numpy_str_to_uint16", "src/hdf5storage/utilities.py:convert_numpy_str_to_uint32", "src/hdf5storage/utilities.py:convert_to_numpy_str"]}
{"id": "C20", "title": "convert_to_str inverts the encoders", "statement": "convert_to_str decodes bytes and uint8/uint16/uint32/str data made by encoding a str back to that str.", "quantifier": "every str of Unicode scalar values", "why_tests_cant": "the input domain is infinite; a test samples finitely many strings/values", "anchors": ["src/hdf5storage/utilities.py:convert_to_str"]}
{"id": "C21", "title": "Complex encode/decode round-trip", "statement": "decode_complex(encode_complex(z, names)) equals z, and decode_complex returns data that is not complex unchanged.", "quantifier": "every complex array and every admissible complex_names option", "why_tests_cant": "the input domain is infinite; a test samples finitely many strings/values", "anchors": ["src/hdf5storage/utilities.py:encode_complex", "src/hdf5storage/utilities.py:decode_complex"]}
{"id": "C22", "title": "Zero-shape detection is right and terminates", "statement": "does_dtype_have_a_zero_shape returns True exactly if the dtype or one of its nested fields or base dtypes has a zero in its shape, and always terminates.", "quantifier": "every dtype tree", "why_tests_cant": "the input domain is infinite; a test samples finitely many strings/values", "anchors": ["src/hdf5storage/utilities.py:does_dtype_have_a_zero_shape"]}
{"id": "C23", "title": "Numeric arrays round-trip", "statement": "Writing a numeric, bool or complex ndarray/scalar/matrix and reading it back with the same options and Python metadata returns the same container, dtype, shape and elements.", "quantifier": "every shape, dtype, contents and option setting", "why_tests_cant": "the input domain is infinite; a test samples finitely many strings/values", "anchors": ["src/hdf5storage/Marshallers.py:NumpyScalarArrayMarshaller.write", "src/hdf5storage/Marshallers.py:NumpyScalarArrayMarshaller.read"]}
{"id": "C24", "title": "oned_as chooses row or column", "statement": "With make_atleast_2d a 1-D array of n elements is stored as 1xn for oned_as='row' and nx1 for 'column' (before dimension reversal).", "quantifier": "every 1-D array and option setting", "why_tests_cant": "the input domain is infinite; a test samples finitely many strings/values", "anchors": ["src/hdf5storage/Marshallers.py:NumpyScalarArrayMarshaller.write"]}
{"id": "C25", "title": "Empty arrays keep their shape", "statement": "An array without elements reads back with its original shape and dtype, whether or not store_shape_for_empty is set.", "quantifier": "every shape containing a zero, every option setting", "why_tests_cant": "the input domain is infinite; a test samples finitely many strings/values", "anchors": ["src/hdf5storage/Marshallers.py:NumpyScalarArrayMarshaller.write", "src/hdf5storage/Marshallers.py:NumpyScalarArrayMarshaller.read"]}
{"id": "C26", "title": "Compression decision", "statement": "A Dataset is compressed iff compress is set, it is not a scalar and its size is at least the threshold; filters and chunking follow the options exactly; scalars get no filter or chunking.", "quantifier": "every data size, shape and option setting", "why_tests_cant": "the input domain is infinite; a test samples finitely many strings/values", "anchors": ["src/hdf5storage/Marshallers.py:NumpyScalarArrayMarshaller.write"]}
{"id": "C27", "title": "Overwriting stores the new data", "statement": "After writing to a name the Dataset there has exactly the new dtype, shape, filters and data, whatever was there before.", "quantifier": "every previous object and every new data", "why_tests_cant": "the input domain is infinite; a test samples finitely many strings/values", "anchors": ["src/hdf5storage/Marshallers.py:NumpyScalarArrayMarshaller.write"]}
{"id": "C28", "title": "MATLAB-incompatible types follow the chosen action", "statement": "When matlab_compatible and the dtype has no MATLAB class: 'error' raises and changes nothing, 'discard' writes nothing and returns None, 'ignore' writes as usual.", "quantifier": "every dtype, every file state", "why_tests_cant": "the input domain is infinite; a test samples finitely many strings/values", "anchors": ["src/hdf5storage/Marshallers.py:NumpyScalarArrayMarshaller.write"]}
{"id": "C29", "title": "Python ints round-trip at any size", "statement": "Writing an int and reading it back gives the same int, however large.", "quantifier": "every int", "why_tests_cant": "the input domain is infinite; a test samples finitely many strings/values", "anchors": ["src/hdf5storage/Marshallers.py:PythonScalarMarshaller"]}
{"id": "C30", "title": "Python strings round-trip", "statement": "Writing a str, bytes or bytearray and reading it back gives an equal object of the same type.", "quantifier": "every str/bytes/bytearray, both UTF-16 option settings", "why_tests_cant": "the input domain is infinite; a test samples finitely many strings/values", "anchors": ["src/hdf5storage/Marshallers.py:PythonStringMarshaller"]}
{"id": "C31", "title": "dicts round-trip", "statement": "Writing a dict or OrderedDict and reading it back gives the same items in the same order with keys of the same type, stored individually if all keys are decodable strings and as keys/values otherwise.", "quantifier": "every dict with any mixture of keys, every nesting depth", "why_tests_cant": "the input domain is infinite; a test samples finitely many strings/values", "anchors": ["src/hdf5storage/Marshallers.py:PythonDictMarshaller"]}
{"id": "C32", "title": "Containers round-trip at any depth", "statement": "list, tuple, set, frozenset, deque and ChainMap of values that round-trip themselves round-trip with type, length and order, nested to any depth.", "quantifier": "every finite nesting", "why_tests_cant": "the input domain is infinite; a test samples finitely many strings/values", "anchors": ["src/hdf5storage/Marshallers.py:PythonListMarshaller", "src/hdf5storage/Marshallers.py:PythonTupleSetDequeMarshaller", "src/hdf5storage/Marshallers.py:PythonChainMapMarshaller"]}
{"id": "C33", "title": "slice, range, datetime, Fraction and Counter round-trip", "statement": "These objects read back equal to what was written.", "quantifier": "every value of those types", "why_tests_cant": "the input domain is infinite; a test samples finitely many strings/values", "anchors": ["src/hdf5storage/Marshallers.py:PythonSliceRangeMarshaller", "src/hdf5storage/Marshallers.py:PythonDatetimeObjsMarshaller", "src/hdf5storage/Marshallers.py:PythonFractionMarshaller", "src/hdf5storage/Marshallers.py:PythonCounterMarshaller"]}
{"id": "C34", "title": "None, Ellipsis and NotImplemented round-trip", "statement": "Each reads back as itself under every option setting with metadata.", "quantifier": "every option setting and file state", "why_tests_cant": "the input domain is infinite; a test samples finitely many strings/values", "anchors": ["src/hdf5storage/Marshallers.py:PythonNoneEllipsisNotImplementedMarshaller"]}
{"id": "C35", "title": "Writes are local", "statement": "Writing to or deleting a path, successfully or not, changes neither whether something is at another path that is not below it and does not contain it nor what is read from there, provided references stored there lead to nowhere else than the references Group. Hence several values written to different unused paths all read back.", "quantifier": "every file state, every history of calls, every pair of paths and value", "why_tests_cant": "it must hold after every finite history of calls; tests run a few", "anchors": ["src/hdf5storage/__init__.py:File.writes"]}
{"id": "C36", "title": "Path errors are detected before anything is written", "statement": "If any path handed to File.writes is invalid, an exception is raised and the file is unchanged; likewise reads raises before reading anything.", "quantifier": "every mapping of paths and file state", "why_tests_cant": "the input domain is infinite; a test samples finitely many strings/values", "anchors": ["src/hdf5storage/__init__.py:File.writes", "src/hdf5storage/__init__.py:File.reads"]}
{"id": "C37", "title": "reads is ordered and is iterated read", "statement": "File.reads(paths) returns one result per path in order, equal to reading each separately, and raises if any single read would.", "quantifier": "every path list and file state", "why_tests_cant": "the input domain is infinite; a test samples finitely many strings/values", "anchors": ["src/hdf5storage/__init__.py:File.reads"]}
{"id": "C38", "title": "Mapping protocol consistency", "statement": "len(f), iteration and membership agree: iteration yields every root name except the references Group exactly once, len(f) is their number, each is a member, and getitem after setitem returns the value, delitem removes it.", "quantifier": "every file state and history of operations", "why_tests_cant": "it must hold after every finite history of calls; tests run a few", "anchors": ["src/hdf5storage/__init__.py:File.__len__", "src/hdf5storage/__init__.py:File.__iter__", "src/hdf5storage/__init__.py:File.__contains__", "src/hdf5storage/__init__.py:File.__delitem__"]}
{"id": "C39", "title": "A closed File refuses every operation", "statement": "After close() closed is True and every data operation raises OSError without touching the file; close() is idempotent.", "quantifier": "every history of operations", "why_tests_cant": "it must hold after every finite history of calls; tests run a few", "anchors": ["src/hdf5storage/__init__.py:File.close", "src/hdf5storage/__init__.py:File.flush"]}
{"id": "C40", "title": "A File opened read-only refuses writes with OSError", "statement": "If opened with writable=False then write, writes, setitem and delitem raise OSError and change nothing.", "quantifier": "every file and operation", "why_tests_cant": "it must hold after every finite history of calls; tests run a few", "anchors": ["src/hdf5storage/__init__.py:File.__init__", "src/hdf5storage/__init__.py:File.writes"]}
{"id": "C41", "title": "File methods are linearizable", "statement": "Concurrent method calls from several threads on one File take effect as if executed one after another in some order consistent with each thread.", "quantifier": "every number of threads, every call sequence and every interleaving", "why_tests_cant": "schedules cannot be enumerated", "anchors": ["src/hdf5storage/__init__.py:File"]}
{"id": "C42", "title": "Opening never destroys data unless told to", "statement": "Opening truncates an existing file only if truncate_existing, or matlab_compatible and truncate_invalid_matlab and its userblock is under 128 bytes; otherwise all bytes from 128 on are untouched at every crash point.", "quantifier": "every existing file, every argument combination, every crash point during the header write", "why_tests_cant": "crash points and file contents cannot be enumerated", "anchors": ["src/hdf5storage/__init__.py:File.__init__"]}
{"id": "C43", "title": "The MATLAB header is well formed", "statement": "The header written is exactly 128 bytes, ASCII text starting 'MATLAB 7.3 MAT-file', space padded to 116 bytes, followed by eight NULs and 00 02 49 4D.", "quantifier": "every date and time", "why_tests_cant": "the clock ranges over all instants", "anchors": ["src/hdf5storage/__init__.py:File.__init__"]}
{"id": "C44", "title": "savemat/loadmat file naming", "statement": "Both functions use the same file name for the same arguments: the name itself if appendmat is False or it ends with '.mat', else with '.mat' appended exactly once.", "quantifier": "every file name and flag", "why_tests_cant": "the input domain is infinite; a test samples finitely many strings/values", "anchors": ["src/hdf5storage/__init__.py:savemat", "src/hdf5storage/__init__.py:loadmat"]}
{"id": "C45", "title": "loadmat returns all variables", "statement": "loadmat returns a dict with every root variable except the references Group under its unescaped name, or exactly those of variable_names that can be read; the entries of a given mdict are kept unless overwritten.", "quantifier": "every file, variable_names and mdict", "why_tests_cant": "the input domain is infinite; a test samples finitely many strings/values", "anchors": ["src/hdf5storage/__init__.py:loadmat"]}
{"id": "C46", "title": "read()/reads() default options", "statement": "The module level read functions use matlab_compatible=False unless the caller gave matlab_compatible or options.", "quantifier": "every keyword set", "why_tests_cant": "the input domain is infinite; a test samples finitely many strings/values", "anchors": ["src/hdf5storage/__init__.py:read", "src/hdf5storage/__init__.py:reads"]}
{"id": "C47", "title": "delete_unused_variables leaves exactly the written fields", "statement": "After writing a dict with string keys (or a record stored like one) with delete_unused_variables the Group contains exactly its fields; without it previously existing other entries are kept and read as before.  A field whose value is discarded (MATLAB-incompatible numpy type, action discard) is not written: what was there under its name stays.  A dict with other keys leaves exactly the two entries for keys and values, whatever the option is.", "quantifier": "every previous Group content and every dict", "why_tests_cant": "the input domain is infinite; a test samples finitely many strings/values", "anchors": ["src/hdf5storage/Marshallers.py:PythonDictMarshaller.write"]}
{"id": "C48", "title": "Type tables are mutually inverse", "statement": "For every builtin marshaller, every type it writes gets a type string which maps back to that type, and every type string is claimed by exactly one builtin marshaller.", "quantifier": "every builtin marshaller and type", "why_tests_cant": "the tables interact through collection priority", "anchors": ["src/hdf5storage/Marshallers.py:TypeMarshaller.update_type_lookups", "src/hdf5storage/__init__.py:MarshallerCollection"]}
{"id": "C49", "title": "Reader dispatch", "statement": "read_data picks the marshaller by Python.Type if present, else by MATLAB_class, else by dtype, else 'struct' for Groups, and falls back to the numpy marshaller when none is found, using read if its modules are present and read_approximate otherwise.", "quantifier": "every attribute set and collection", "why_tests_cant": "the input domain is infinite; a test samples finitely many strings/values", "anchors": ["src/hdf5storage/utilities.py:LowLevelFile.read_data"]}
{"id": "C50", "title": "MATLAB-only metadata is interpreted", "statement": "Reading a Dataset with only MATLAB attributes gives a numpy array with the order of the dimensions reversed (complex for compounds of a real and an imaginary part), of bools for logical, of the texts along the rows for char, of the objects referred to for cell; with MATLAB_empty an array without elements, of the type of the class and of the stored shape (not reversed); for an unknown class the data as they are.  The options do not matter.", "quantifier": "every dataset with MATLAB attributes", "why_tests_cant": "the input domain is infinite; a test samples finitely many strings/values", "anchors": ["src/hdf5storage/Marshallers.py:NumpyScalarArrayMarshaller.read"]}
{"id": "C51", "title": "Plugins are loaded robustly", "statement": "With load_plugins the plugin marshallers are exactly the marshallers returned by the entry points of a supported API version; plugins that raise, are not callable or return other objects never hinder the others.", "quantifier": "every set of installed entry points and their behaviours", "why_tests_cant": "the input domain is infinite; a test samples finitely many strings/values", "anchors": ["src/hdf5storage/__init__.py:MarshallerCollection.__init__", "src/hdf5storage/plugins.py:find_thirdparty_marshaller_plugins"]}
{"id": "C52", "title": "Reading does not need the options used for writing", "statement": "What read and reads do with a file depends on reverse_dimension_order, structs_as_dicts, the keys/values names and group_for_references only; data written with Python metadata, MATLAB compatible and without letting incompatible types through, reads back with every options that have the references Group at the same place, other data with options of the same order of dimensions.", "quantifier": "every file, every value, every pair of options", "why_tests_cant": "the input domain is infinite; a test samples finitely many strings/values", "anchors": ["src/hdf5storage/Marshallers.py:NumpyScalarArrayMarshaller.read", "src/hdf5storage/__init__.py:read"]}
{"id": "C53", "title": "Writer dispatch", "statement": "write_data writes with the first marshaller, highest priority first, that declares exactly the class of the data (base classes do not count), all of whose modules are imported then; if there is none or its modules are missing it raises NotImplementedError.", "quantifier": "every class, set of marshallers, priority order, module environment and history of the collection", "why_tests_cant": "it must hold after every finite history of calls; tests run a few", "anchors": ["src/hdf5storage/utilities.py:LowLevelFile.write_data", "src/hdf5storage/__init__.py:MarshallerCollection.get_marshaller_for_type"]}
{"id": "C54", "title": "Structured numpy data round-trips", "statement": "Writing a structured numpy array, matrix, recarray or scalar and reading it back gives the same container, shape, field names in their order, field dtypes and values; fields may hold subarrays, objects and structured data again, nested to any depth.", "quantifier": "every structured dtype, shape and contents, every option setting with Python metadata", "why_tests_cant": "the input domain is infinite; a test samples finitely many strings/values", "anchors": ["src/hdf5storage/Marshallers.py:NumpyScalarArrayMarshaller.write", "src/hdf5storage/Marshallers.py:NumpyScalarArrayMarshaller.read"]}
{"id": "C55", "title": "MATLAB structs are interpreted", "statement": "Reading a Group with MATLAB_class struct and MATLAB attributes only gives, with structs_as_dicts, a dict with exactly the fields that can be read and their values, otherwise a structured array: of one element if a field is stored directly, else of the elements referred to with the order of the dimensions reversed; the fields are in the order of MATLAB_fields, then sorted, and have the dtype and shape their values have in common or are object fields.  An empty struct gives an empty structured array of the stored shape.", "quantifier": "every struct Group with MATLAB attributes, every number of fields and elements", "why_tests_cant": "the input domain is infinite; a test samples finitely many strings/values", "anchors": ["src/hdf5storage/Marshallers.py:NumpyScalarArrayMarshaller.read"]}
{"id": "C56", "title": "Writing what can be written raises nothing", "statement": "Writing a value of supported types, nested to any depth, to an acceptable path with nothing but Groups on the way to it succeeds, whether or not something is there already and whatever else is in the file; a value that also survives a round trip then reads back equal. Conditions: names that can be stored (ASCII for MATLAB compatible Groups), types not forbidden by the options, gzip if compressing, a recursion limit large enough.", "quantifier": "every value, option setting, path and history of the file, including files with a references Group made by somebody else", "why_tests_cant": "it must hold after every finite history of calls; tests run a few", "anchors": ["src/hdf5storage/__init__.py:File.write", "src/hdf5storage/__init__.py:File.writes", "src/hdf5storage/utilities.py:LowLevelFile.write_data", "src/hdf5storage/utilities.py:LowLevelFile.write_object_array", "src/hdf5storage/Marshallers.py:NumpyScalarArrayMarshaller.write", "src/hdf5storage/Marshallers.py:PythonDictMarshaller.write"]}
{"id": "C57", "title": "Overwriting replaces", "statement": "After a value was written to a path that was in use already, reading it gives the new value with nothing of the old one left, after any sequence of such writes and of operations elsewhere.", "quantifier": "every pair of values, every history, every option setting with Python metadata", "why_tests_cant": "it must hold after every finite history of calls; tests run a few", "anchors": ["src/hdf5storage/utilities.py:set_attributes_all", "src/hdf5storage/utilities.py:write_data", "src/hdf5storage/Marshallers.py:NumpyScalarArrayMarshaller.write", "src/hdf5storage/Marshallers.py:PythonDictMarshaller.write", "src/hdf5storage/__init__.py:File.write"]}
{"id": "C58", "title": "Stored references stay valid", "statement": "However a file is used, writing, overwriting, deleting, closing and reopening it, successfully or not, every object reference in every Dataset of it leads to an object that is in the references Group; nothing referred to is removed from there or replaced. Conditions: it was so in the beginning, the object with the name 'a' there, if any, is the canonical empty, and the random names drawn within one call do not repeat. Deleting the references Group itself is not covered.", "quantifier": "every file, every value, every history of calls and of reopening with other options", "why_tests_cant": "it must hold after every finite history of calls; tests run a few", "anchors": ["src/hdf5storage/utilities.py:LowLevelFile.write_object_array", "src/hdf5storage/utilities.py:LowLevelFile.next_unused_ref_group_name", "src/hdf5storage/__init__.py:File.writes", "src/hdf5storage/__init__.py:File.__delitem__"]}
{"id": "C59", "title": "Files written with matlab_compatible are as MATLAB expects them", "statement": "Every object in a file written with matlab_compatible (and incompatible data not ignored) has a MATLAB_class that fits the type of its elements, at least two dimensions, none zero; arrays without elements are marked with MATLAB_empty and hold their dimensions; MATLAB_int_decode, if there, is the element size; Groups are structs or have no class. This is kept by every sequence of method calls, successful or not, and by savemat and writes. A value written to an unused place has the MATLAB_class documented for it.", "quantifier": "every value, every history of calls, every file state, every options with matlab_compatible", "why_tests_cant": "it must hold after every finite history of calls; tests run a few", "anchors": ["src/hdf5storage/Marshallers.py:NumpyScalarArrayMarshaller.write", "src/hdf5storage/Marshallers.py:PythonDictMarshaller.write", "src/hdf5storage/utilities.py:write_object_array", "src/hdf5storage/__init__.py:File.writes", "src/hdf5storage/__init__.py:savemat", "doc/source/storage_format.rst"]}
{"id": "C60", "title": "Writing to the root Group", "statement": "Writing a dict (or a record stored like one) without giving a path, or with a path of the root Group, stores its values under their names in the root Group: each reads back under its name, and reading the root Group gives the dict, without the references Group. Writing anything but a mapping or a structured array there raises an exception; the file is not changed, unless elements of a container were written already.", "quantifier": "every dict, record and other value, every option setting with Python metadata, every history of the file", "why_tests_cant": "it must hold after every finite history of calls; tests run a few", "anchors": ["src/hdf5storage/__init__.py:write", "src/hdf5storage/__init__.py:File.write", "src/hdf5storage/__init__.py:File.read", "src/hdf5storage/Marshallers.py:PythonDictMarshaller.write", "src/hdf5storage/Marshallers.py:PythonDictMarshaller.read"]}
{"id": "C61", "title": "Attributes are exactly the documented ones", "statement": "Something written to an unused place has exactly the attributes documented for its type (Python.Type, Python.Shape, Python.numpy.UnderlyingType, Python.numpy.Container, Python.Empty, Python.Fields, Python.dict.*, MATLAB_class, MATLAB_empty, MATLAB_int_decode, MATLAB_fields) with the documented values, and no others: the Python ones with store_python_metadata, the MATLAB ones with matlab_compatible.", "quantifier": "every value that is not discarded, every options, every history of the file", "why_tests_cant": "the input domain is infinite; a test samples finitely many strings/values", "anchors": ["src/hdf5storage/Marshallers.py:TypeMarshaller.write_metadata", "src/hdf5storage/Marshallers.py:NumpyScalarArrayMarshaller.write_metadata", "src/hdf5storage/Marshallers.py:PythonDictMarshaller.write_metadata", "doc/source/storage_format.rst"]}
{"id": "C62", "title": "Stored layout at every depth", "statement": "A value written to an unused place is stored, at every depth, as documented: values without parts as a Dataset holding the data (or the shape, if there are no elements and that is asked for); dicts and records as a Group with exactly one entry per field that is not discarded, under its escaped name (or the entries for keys and values); structured arrays as a Group of their fields or columns if asked for or needed, else as a compound Dataset; object arrays, lists and the like as a Dataset of references in the documented shape and order, each leading to the layout of the element in the references Group, or to the canonical empty for elements that are discarded. Every object has exactly the documented attributes, and those in other containers H5PATH with the name of the Group they are in, if matlab_compatible.", "quantifier": "every value of documented types nested to any depth, every options, every history of the file", "why_tests_cant": "it must hold after every finite history of calls; tests run a few", "anchors": ["src/hdf5storage/Marshallers.py:NumpyScalarArrayMarshaller.write", "src/hdf5storage/Marshallers.py:PythonDictMarshaller.write", "src/hdf5storage/utilities.py:LowLevelFile.write_object_array", "src/hdf5storage/utilities.py:LowLevelFile.write_data", "doc/source/storage_format.rst"]}
{"id": "C63", "title": "Text is stored in the documented encoding", "statement": "str and arrays of str are stored as uint16 in UTF-16 if convert_numpy_str_to_utf16 is set and no character needs a UTF-16 doublet, else as uint32 in UTF-32, the characters of the strings side by side in the last dimension; bytes, bytearrays, large ints, np.dtype objects and arrays of bytes as uint16 in UTF-16 if convert_numpy_bytes_to_utf16 is set and they are ASCII, else as bytes.  Then the dimensions are treated as for other data.", "quantifier": "every text, every shape, every option setting, every history of the file", "why_tests_cant": "it must hold after every finite history of calls; tests run a few", "anchors": ["src/hdf5storage/Marshallers.py:NumpyScalarArrayMarshaller.write", "src/hdf5storage/utilities.py:convert_numpy_str_to_uint16", "src/hdf5storage/utilities.py:convert_numpy_str_to_uint32", "doc/source/storage_format.rst"]}
{"id": "C64", "title": "Inherited mapping methods", "statement": "File is a MutableMapping: get, pop, popitem, clear, update, setdefault, items and values behave as for a dict. get, pop and setdefault give what is read at the path, or the default if nothing is there; pop and popitem remove exactly what they give; clear comes to an end and leaves nothing but the references Group; update writes what writes would write; items and values are the names in the root Group, without the references Group, and what is read there.", "quantifier": "every file state, history of operations, path, value and order of names", "why_tests_cant": "it must hold after every finite history of calls; tests run a few", "anchors": ["src/hdf5storage/__init__.py:File", "src/hdf5storage/__init__.py:File.__getitem__", "src/hdf5storage/__init__.py:File.__iter__", "src/hdf5storage/__init__.py:File.__delitem__", "src/hdf5storage/__init__.py:File.__setitem__"]}
{"id": "C65", "title": "np.dtype objects are recreated", "statement": "convert_dtype_to_str gives a text that, passed through ast.literal_eval and then to the constructor of numpy.dtype, recreates the dtype, so that different dtypes have different texts; a numpy.dtype written to a file reads back as the same dtype: any nesting of structures and subarrays, any names and titles, any sizes and byte orders, fields with gaps or out of order.", "quantifier": "every numpy.dtype, every option setting with Python metadata", "why_tests_cant": "the input domain is infinite; a test samples finitely many strings/values", "anchors": ["src/hdf5storage/utilities.py:convert_dtype_to_str", "src/hdf5storage/Marshallers.py:NumpyDtypeMarshaller.write", "src/hdf5storage/Marshallers.py:NumpyDtypeMarshaller.read"]}
{"id": "C66", "title": "MATLAB form without Python metadata", "statement": "What is written with matlab_compatible and without store_python_metadata reads back in its MATLAB form, at every depth: numbers as arrays of the same dtype with the same elements and at least two dimensions, text as an array of the rows of its matrix of characters (a str as a (1, 1) array holding it), lists and object arrays as object arrays of at least two dimensions of what the elements read as, arrays without elements as such of the dtype of their class, dicts, records and structured arrays as dicts of their fields with structs_as_dicts and otherwise as structured arrays (shape (1,) for one element, else of the same shape, with at least two dimensions) with the dtype the values of a field have in common or object.", "quantifier": "every value MATLAB has a class for nested to any depth, every options with matlab_compatible and without Python metadata for writing, every options with the references Group at the same place for reading, every history of the file", "why_tests_cant": "it must hold after every finite history of calls; tests run a few", "anchors": ["src/hdf5storage/Marshallers.py:NumpyScalarArrayMarshaller.write", "src/hdf5storage/Marshallers.py:NumpyScalarArrayMarshaller.read", "src/hdf5storage/Marshallers.py:PythonDictMarshaller.write", "src/hdf5storage/utilities.py:LowLevelFile.read_data"]}
{"id": "C67", "title": "Paths as bytes and pathlib objects", "statement": "A path given as bytes means what the text they encode in UTF-8 means; a pathlib.PurePath means what the path it was made from means as a str, in any spelling (a PureWindowsPath: what its names mean, whatever the drive); every reading, writing and asking method does the same for paths that mean the same.", "quantifier": "every text, every bytes, every PurePosixPath and PureWindowsPath, every file", "why_tests_cant": "the input domain is infinite; a test samples finitely many strings/values", "anchors": ["src/hdf5storage/pathesc.py:process_path"]}
{"id": "C68", "title": "Which options and collections are shared", "statement": "A File opened with an Options object keeps the values that object had at that moment, whatever is assigned later; different Options objects do not influence each other; a MarshallerCollection is one object for all Options and Files that use it, so that adding a marshaller reaches also Files already open; Options without a collection use the default one of the moment they are made, and make_new_default_marshaller_collection replaces it for later ones only, or raises and leaves it.", "quantifier": "every history of making, assigning and opening, any number of Options, collections and Files", "why_tests_cant": "it must hold after every finite history of calls; tests run a few", "anchors": ["src/hdf5storage/__init__.py:File.__init__", "src/hdf5storage/__init__.py:Options.marshaller_collection", "src/hdf5storage/__init__.py:get_default_marshaller_collection", "src/hdf5storage/__init__.py:make_new_default_marshaller_collection"]}
{"id": "C69", "title": "writes is a sequence of single writes", "statement": "writes writes the values one after the other in the order of the mapping: it does what single writes in that order do. If it raises at one of them, all values before that one are written completely and read back (their places having been unused and apart from each other), and at the places of those after it nothing was made.", "quantifier": "every mapping, value, option setting and history of the file; every value at which writing fails and every way in which it fails", "why_tests_cant": "it must hold after every finite history of calls; tests run a few", "anchors": ["src/hdf5storage/__init__.py:File.writes", "src/hdf5storage/utilities.py:LowLevelFile.write_data"]}
{"id": "C70", "title": "Memory layout and byte order do not matter", "statement": "What is stored for an array of strings or bytes, and what the conversions between strings, bytes and unsigned integers give, depends on its elements only, not on how it lies in memory (C or Fortran order, slices, negative strides), nor on its byte order or that of the machine.", "quantifier": "every array of str, bytes, uint8, uint16 or uint32: every shape, strides, address and byte order, machines of both byte orders", "why_tests_cant": "the input domain is infinite; a test samples finitely many strings/values", "anchors": ["src/hdf5storage/utilities.py:convert_numpy_str_to_uint16", "src/hdf5storage/utilities.py:convert_numpy_str_to_uint32", "src/hdf5storage/utilities.py:convert_to_str", "src/hdf5storage/utilities.py:convert_to_numpy_str", "src/hdf5storage/utilities.py:convert_to_numpy_bytes", "src/hdf5storage/Marshallers.py:NumpyScalarArrayMarshaller.write"]}
{"id": "C71", "title": "Marshallers of users round-trip their types", "statement": "An object of a user's own class that is written by a marshaller inheriting from the numpy, list or dict marshaller reads back as what the marshaller's conversion makes of the data it handed to its parent (as a list or dict if that was its parent), hence as the same object if its conversions are inverse; also later, however the file is used elsewhere, and in other sessions in which the same marshaller is the one for its type string. Values of builtin types in the same file read back as before unless the marshaller claims their type strings with priority. Exception: a record array handed to the numpy marshaller comes back as an ordinary structured array.", "quantifier": "every marshaller, conversion, collection, priority, object and data it hands over, option setting with Python metadata and history of the file", "why_tests_cant": "it must hold after every finite history of calls; tests run a few", "anchors": ["src/hdf5storage/Marshallers.py:TypeMarshaller.write", "src/hdf5storage/Marshallers.py:TypeMarshaller.read", "src/hdf5storage/Marshallers.py:TypeMarshaller.get_type_string", "src/hdf5storage/utilities.py:LowLevelFile.write_data", "src/hdf5storage/utilities.py:LowLevelFile.read_data", "src/hdf5storage/__init__.py:MarshallerCollection", "examples/example_hdf5storage_marshaller_plugin"]}
{"id": "C72", "title": "Objects of users read without their marshaller", "statement": "If no marshaller claims the type string of an object of a user's own class, what its marshaller handed to the numpy marshaller is read, or an object array of the elements of the list it handed over. If its marshaller is there but not the modules it needs, read_approximate of it decides, and without that NotImplementedError is raised.", "quantifier": "every marshaller, collection, object, option setting with Python metadata and history of the file", "why_tests_cant": "it must hold after every finite history of calls; tests run a few", "anchors": ["src/hdf5storage/utilities.py:LowLevelFile.read_data", "src/hdf5storage/Marshallers.py:TypeMarshaller.read_approximate", "src/hdf5storage/__init__.py:MarshallerCollection.get_marshaller_for_type_string"]}
{"id": "C73", "title": "Data outlives the with statement", "statement": "'with File(...) as f' closes the file however the block ends, passes an exception of the block on, and leaves on disk what the calls made in the block did, in this file only; read-only it changes nothing. The functions write, writes, read, reads, savemat and loadmat are such statements. A value written in one is read back after any number of later ones, with this file and others, that do not truncate the file or touch its place.", "quantifier": "every block (any sequence of calls depending on the results, ending normally or by an exception), arguments, disk content and program of such statements", "why_tests_cant": "it must hold after every finite history of calls; tests run a few", "anchors": ["src/hdf5storage/__init__.py:File.__enter__", "src/hdf5storage/__init__.py:File.__exit__", "src/hdf5storage/__init__.py:File.__init__", "src/hdf5storage/__init__.py:writes", "src/hdf5storage/__init__.py:write", "src/hdf5storage/__init__.py:reads", "src/hdf5storage/__init__.py:read", "src/hdf5storage/__init__.py:savemat", "src/hdf5storage/__init__.py:loadmat"]}
{"id": "C74", "title": "Load, save, load", "statement": "What was read from data stored with matlab_compatible and without Python metadata (as those of C66), written again with Python metadata to an unused place of any file with any options, reads back exactly as it was read the first time: nothing is converted twice. structs_as_dicts is the same both times; structured arrays without elements are excepted.", "quantifier": "every value MATLAB has a class for nested to any depth, every options of both sessions, every history of both files", "why_tests_cant": "it must hold after every finite history of calls; tests run a few", "anchors": ["src/hdf5storage/Marshallers.py:NumpyScalarArrayMarshaller.write", "src/hdf5storage/Marshallers.py:NumpyScalarArrayMarshaller.read", "src/hdf5storage/Marshallers.py:PythonDictMarshaller.write", "src/hdf5storage/Marshallers.py:PythonDictMarshaller.read"]}
{"id": "C75", "title": "Copying one file into another", "statement": "Any number of variables, of any kinds and nesting, written with one call of writes or update to unused names of a file are written without an exception and all read back equal. f.update(g) copies every variable of the file g into f: f then gives under every name in g the value that g gives, whatever the options of g, and everything else in f stays as it was, even if copying raises an exception in the middle.", "quantifier": "every list of variables, every content and option settings of both files, every history of f", "why_tests_cant": "it must hold after every finite history of calls; tests run a few", "anchors": ["src/hdf5storage/__init__.py:File.__setitem__", "src/hdf5storage/__init__.py:File.__getitem__", "src/hdf5storage/__init__.py:File.__iter__", "src/hdf5storage/__init__.py:File.writes"]}
{"id": "C76", "title": "Deeply nested data is read whole or not at all", "statement": "Python's recursion limit decides only whether data can be written and read, not what is written or read: with every limit that is not smaller than the nesting of the data writing and reading do the same, a write that raised nothing does the same with any larger limit, and a value written under any limit is read back whole under every limit not smaller than its nesting. If data is nested too deep an exception is raised.", "quantifier": "every value and nesting, every recursion limit of the writing and the reading program, every file", "why_tests_cant": "the input domain is infinite; a test samples finitely many strings/values", "anchors": ["src/hdf5storage/utilities.py:LowLevelFile.write_data", "src/hdf5storage/utilities.py:LowLevelFile.read_data", "src/hdf5storage/Marshallers.py:NumpyScalarArrayMarshaller.read", "src/hdf5storage/Marshallers.py:PythonDictMarshaller.read"]}
{"id": "C77", "title": "Reading a dict gives exactly its readable members", "statement": "Reading a Group that is marked as a dict (or a struct of MATLAB with structs_as_dicts, or a Group without metadata as a structured array) gives exactly those of its members that can be read, apart from the Group of the references: each value is what the member reads as by itself, each key stands for the unescaped name of the member, no two keys are equal, and no member that can be read is missing. What cannot be read is left out without an exception.", "quantifier": "every file, also those not written by the package: any attributes, names and contents of the members, any member unreadable for any reason", "why_tests_cant": "the input domain is infinite; a test samples finitely many strings/values", "anchors": ["src/hdf5storage/Marshallers.py:PythonDictMarshaller.read", "src/hdf5storage/Marshallers.py:NumpyScalarArrayMarshaller.read", "src/hdf5storage/utilities.py:LowLevelFile.read_data"]}
{"id": "C78", "title": "What is read without any metadata", "statement": "With store_python_metadata and matlab_compatible both off, what is made of numbers, text, lists and the like, object arrays, dicts, records and structured arrays is read back as the Datasets and Groups alone show it: arrays as they were stored (without conversions exactly the array that was written, structured ones in compound Datasets included), lists and the like as object arrays of what their elements are read as, and everything with fields as a structured array, with one element, or, if all fields are Datasets of references, with the shape of the last one, the elements others have less being zeros; its fields are sorted by name. A dict whose values all are lists is therefore read as a structured array with as many elements as the list of the last key has, and raises IndexError on reading if another one is longer (finding F62).", "quantifier": "every such value at every depth, every file in use and every free place in it, all other options of writing, all options of reading with the same place for the references", "why_tests_cant": "the input domain is infinite; a test samples finitely many strings/values", "anchors": ["src/hdf5storage/Marshallers.py:NumpyScalarArrayMarshaller.read", "src/hdf5storage/Marshallers.py:PythonDictMarshaller.write", "src/hdf5storage/utilities.py:write_object_array", "src/hdf5storage/utilities.py:read_object_array", "src/hdf5storage/utilities.py:convert_numpy_str_to_uint32"]}
{"id": "C79", "title": "The keys of a file are a set", "statement": "f.keys() does with a set of names what the set of the names in the root Group (but that of the references Group) does: <=, >=, ==, isdisjoint, &, |, -, ^, on either side.", "quantifier": "every history of the file, every set of names", "why_tests_cant": "it must hold after every finite history of calls; tests run a few", "anchors": ["src/hdf5storage/__init__.py:File.__contains__", "src/hdf5storage/__init__.py:File.__iter__", "src/hdf5storage/__init__.py:File.__len__"]}
{"id": "C80", "title": "convert_to_numpy_bytes encodes in UTF-8", "statement": "convert_to_numpy_bytes turns every text it is given (str, numpy str, arrays of str, UTF-16 or UTF-32 in arrays of unsigned integers) into the bytes of its UTF-8 encoding, whole and at the same place, so that convert_to_str gives the text back.", "quantifier": "every text without trailing NULs, every array of texts of any shape", "why_tests_cant": "the input domain is infinite; a test samples finitely many strings/values", "anchors": ["src/hdf5storage/utilities.py:convert_to_numpy_bytes", "src/hdf5storage/utilities.py:convert_to_str"]}
