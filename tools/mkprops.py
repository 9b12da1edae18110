# Generates /verif/properties.jsonl (kept as a script so that statements stay in one place).
import json, os
P = []
def p(title, statement, quantifier, why, anchors):
    P.append(dict(id="C%02d" % (len(P)+1), title=title, statement=statement, quantifier=quantifier, why_tests_cant=why, anchors=anchors))
PE="src/hdf5storage/pathesc.py"; U="src/hdf5storage/utilities.py"; I="src/hdf5storage/__init__.py"; M="src/hdf5storage/Marshallers.py"; PL="src/hdf5storage/plugins.py"
INF="the input domain is infinite; a test samples finitely many strings/values"
HIST="it must hold after every finite history of calls; tests run a few"
# paths
p("Path escaping round-trips","unescape_path(escape_path(p)) returns p and never raises.","every str p (any code points, surrogates and NULs included, any length)",INF,[PE+":escape_path",PE+":unescape_path"])
p("An escaped name cannot navigate","escape_path(p) contains no '/' and no NUL, does not start with '.', and is empty only if p is; hence as an HDF5 link name it always denotes one link in the current Group.","every str p",INF,[PE+":escape_path"])
p("Path escaping is injective","Two different str never escape to the same name, so two different keys or path parts never collide in a Group.","every pair of str",INF,[PE+":escape_path"])
p("unescape_path implements the documented escape grammar","unescape_path reads left to right: a doubled backslash gives one backslash, \\xYY / \\uYYYY / \\UYYYYYYYY give that code point, every other non-backslash character is itself, and ValueError is raised for any other use of a backslash or a code point above 0x10FFFF.","every str",INF,[PE+":unescape_path",PE+":_find_invalid_escape_re",PE+":_find_escapes_re"])
p("Separated paths address exactly the named object","For a path given as a sequence of non-empty parts, process_path returns the '/'-joined escaped leading parts ('/' if there are none) and the escaped last part; parts such as '..', 'a/b' or NUL never change directory; different part sequences give different (group, target) pairs.","every non-empty sequence of non-empty str parts",INF,[PE+":process_path"])
p("String paths are normalised","For a str path process_path gives a non-empty group and non-empty target; spelling variants (duplicate slashes, '.' parts, trailing slash, 'x/..') give the same pair; re-processing the joined result is stable.","every str path",INF,[PE+":process_path"])
p("The references Group is out of bounds for read and write","File.writes / File.reads raise ValueError for every path, in any spelling, that denotes the Group named by group_for_references or anything below it, and for no other path.","every options value for group_for_references and every path",INF,[I+":File.writes",I+":File.reads"])
# options
p("matlab_compatible forces its table","Whenever matlab_compatible is True all the options in the documented table hold their MATLAB values.","every construction and every sequence of option assignments with arbitrary Python values",HIST,[I+":Options"])
p("Options never hold an invalid value","After any construction and any sequence of assignments with arbitrary values each option is of its documented type and range (bools, the enumerations, threshold >= 0, 0 <= gzip level <= 9, str names, two-str tuple); invalid assignments leave the option unchanged.","every construction and sequence of assignments",HIST,[I+":Options"])
p("group_for_references is an absolute non-root path","group_for_references is always an absolute POSIX path different from the root.","every construction and sequence of assignments",HIST,[I+":Options.group_for_references"])
# collection
p("Marshaller lookup honours the priority order","After any history in which no add/remove/clear call raised, get_marshaller_for_type / _type_string / _matlab_class return the first marshaller, in the priority order of builtin/plugin/user and then list order, that declares the key, and None exactly if no marshaller declares it.","every set of marshallers, every priority permutation, every key, after every history of add/remove/clear calls",HIST,[I+":MarshallerCollection"])
p("User marshaller set semantics","After any history of successful add_marshaller / remove_marshaller / clear_marshallers calls the user marshallers are the ones added and not since removed, without duplicates, in first-addition order; builtin and plugin marshallers are never affected.","every history of calls",HIST,[I+":MarshallerCollection.add_marshaller",I+":MarshallerCollection.remove_marshaller",I+":MarshallerCollection.clear_marshallers"])
p("has_required_modules is truthful","A lookup returns has_modules=True only if every module the returned marshaller requires is imported after the call; it returns False only if a required parent module was absent when the collection was last updated or importing a required module failed.","every module environment, marshaller set and history of updates and lookups, lazy or not",HIST,[I+":MarshallerCollection._update_marshallers",I+":MarshallerCollection._import_marshaller_modules"])
p("A failed add_marshaller has no effect","If add_marshaller raises TypeError the collection behaves afterwards exactly as if the call had not been made.","every collection and argument list",HIST,[I+":MarshallerCollection.add_marshaller"])
p("The priority argument is validated","Construction raises ValueError unless priority is a permutation of builtin, plugin, user.","every priority sequence",INF,[I+":MarshallerCollection.__init__"])
# attributes / refs
p("set_attributes_all sets what it was given","After set_attributes_all(target, attributes) every given attribute has the given value, and with discard_others exactly the given ones exist; without it the others are unchanged.","every pre-existing attribute set and every attributes dict",INF,[U+":set_attributes_all"])
p("Reference names are fresh","next_unused_ref_group_name never returns a name in use in the references Group or one it returned before and used, and never the canonical-empty name 'a'.","every history of calls, every pre-existing content of the Group, every random stream",HIST,[U+":LowLevelFile.next_unused_ref_group_name"])
p("Object arrays are written element for element","write_object_array returns references of the same number as elements, the i-th pointing to the object holding element i (or the canonical empty if the element was discarded), all to distinct new objects, and reading the references back yields the elements in order.","every object array, nested to any depth, every prior file content",INF,[U+":LowLevelFile.write_object_array",U+":LowLevelFile.read_object_array"])
# string conversions
p("String to uint16/uint32 conversion is reversible","convert_to_numpy_str(convert_numpy_str_to_uintNN(s), length=len(s)) equals s.","every numpy str scalar/array without trailing NULs",INF,[U+":convert_numpy_str_to_uint16",U+":convert_numpy_str_to_uint32",U+":convert_to_numpy_str"])
p("convert_to_str inverts the encoders","convert_to_str decodes bytes and uint8/uint16/uint32/str data made by encoding a str back to that str.","every str of Unicode scalar values",INF,[U+":convert_to_str"])
p("Complex encode/decode round-trip","decode_complex(encode_complex(z, names)) equals z, and decode_complex returns data that is not complex unchanged.","every complex array and every admissible complex_names option",INF,[U+":encode_complex",U+":decode_complex"])
p("Zero-shape detection is right and terminates","does_dtype_have_a_zero_shape returns True exactly if the dtype or one of its nested fields or base dtypes has a zero in its shape, and always terminates.","every dtype tree",INF,[U+":does_dtype_have_a_zero_shape"])
# numpy marshaller
p("Numeric arrays round-trip","Writing a numeric, bool or complex ndarray/scalar/matrix and reading it back with the same options and Python metadata returns the same container, dtype, shape and elements.","every shape, dtype, contents and option setting",INF,[M+":NumpyScalarArrayMarshaller.write",M+":NumpyScalarArrayMarshaller.read"])
p("oned_as chooses row or column","With make_atleast_2d a 1-D array of n elements is stored as 1xn for oned_as='row' and nx1 for 'column' (before dimension reversal).","every 1-D array and option setting",INF,[M+":NumpyScalarArrayMarshaller.write"])
p("Empty arrays keep their shape","An array without elements reads back with its original shape and dtype, whether or not store_shape_for_empty is set.","every shape containing a zero, every option setting",INF,[M+":NumpyScalarArrayMarshaller.write",M+":NumpyScalarArrayMarshaller.read"])
p("Compression decision","A Dataset is compressed iff compress is set, it is not a scalar and its size is at least the threshold; filters and chunking follow the options exactly; scalars get no filter or chunking.","every data size, shape and option setting",INF,[M+":NumpyScalarArrayMarshaller.write"])
p("Overwriting stores the new data","After writing to a name the Dataset there has exactly the new dtype, shape, filters and data, whatever was there before.","every previous object and every new data",INF,[M+":NumpyScalarArrayMarshaller.write"])
p("MATLAB-incompatible types follow the chosen action","When matlab_compatible and the dtype has no MATLAB class: 'error' raises and changes nothing, 'discard' writes nothing and returns None, 'ignore' writes as usual.","every dtype, every file state",INF,[M+":NumpyScalarArrayMarshaller.write"])
# python values
p("Python ints round-trip at any size","Writing an int and reading it back gives the same int, however large.","every int",INF,[M+":PythonScalarMarshaller"])
p("Python strings round-trip","Writing a str, bytes or bytearray and reading it back gives an equal object of the same type.","every str/bytes/bytearray, both UTF-16 option settings",INF,[M+":PythonStringMarshaller"])
p("dicts round-trip","Writing a dict or OrderedDict and reading it back gives the same items in the same order with keys of the same type, stored individually if all keys are decodable strings and as keys/values otherwise.","every dict with any mixture of keys, every nesting depth",INF,[M+":PythonDictMarshaller"])
p("Containers round-trip at any depth","list, tuple, set, frozenset, deque and ChainMap of values that round-trip themselves round-trip with type, length and order, nested to any depth.","every finite nesting",INF,[M+":PythonListMarshaller",M+":PythonTupleSetDequeMarshaller",M+":PythonChainMapMarshaller"])
p("slice, range, datetime, Fraction and Counter round-trip","These objects read back equal to what was written.","every value of those types",INF,[M+":PythonSliceRangeMarshaller",M+":PythonDatetimeObjsMarshaller",M+":PythonFractionMarshaller",M+":PythonCounterMarshaller"])
p("None, Ellipsis and NotImplemented round-trip","Each reads back as itself under every option setting with metadata.","every option setting and file state",INF,[M+":PythonNoneEllipsisNotImplementedMarshaller"])
# File
p("Writes are local","Writing to or deleting a path, successfully or not, changes neither whether something is at another path that is not below it and does not contain it nor what is read from there, provided references stored there lead to nowhere else than the references Group. Hence several values written to different unused paths all read back.","every file state, every history of calls, every pair of paths and value",HIST,[I+":File.writes"])
p("Path errors are detected before anything is written","If any path handed to File.writes is invalid, an exception is raised and the file is unchanged; likewise reads raises before reading anything.","every mapping of paths and file state",INF,[I+":File.writes",I+":File.reads"])
p("reads is ordered and is iterated read","File.reads(paths) returns one result per path in order, equal to reading each separately, and raises if any single read would.","every path list and file state",INF,[I+":File.reads"])
p("Mapping protocol consistency","len(f), iteration and membership agree: iteration yields every root name except the references Group exactly once, len(f) is their number, each is a member, and getitem after setitem returns the value, delitem removes it.","every file state and history of operations",HIST,[I+":File.__len__",I+":File.__iter__",I+":File.__contains__",I+":File.__delitem__"])
p("A closed File refuses every operation","After close() closed is True and every data operation raises OSError without touching the file; close() is idempotent.","every history of operations",HIST,[I+":File.close",I+":File.flush"])
p("A File opened read-only refuses writes with OSError","If opened with writable=False then write, writes, setitem and delitem raise OSError and change nothing.","every file and operation",HIST,[I+":File.__init__",I+":File.writes"])
p("File methods are linearizable","Concurrent method calls from several threads on one File take effect as if executed one after another in some order consistent with each thread.","every number of threads, every call sequence and every interleaving","schedules cannot be enumerated",[I+":File"])
p("Opening never destroys data unless told to","Opening truncates an existing file only if truncate_existing, or matlab_compatible and truncate_invalid_matlab and its userblock is under 128 bytes; otherwise all bytes from 128 on are untouched at every crash point.","every existing file, every argument combination, every crash point during the header write","crash points and file contents cannot be enumerated",[I+":File.__init__"])
p("The MATLAB header is well formed","The header written is exactly 128 bytes, ASCII text starting 'MATLAB 7.3 MAT-file', space padded to 116 bytes, followed by eight NULs and 00 02 49 4D.","every date and time","the clock ranges over all instants",[I+":File.__init__"])
p("savemat/loadmat file naming","Both functions use the same file name for the same arguments: the name itself if appendmat is False or it ends with '.mat', else with '.mat' appended exactly once.","every file name and flag",INF,[I+":savemat",I+":loadmat"])
p("loadmat returns all variables","loadmat returns a dict with every root variable except the references Group under its unescaped name, or exactly those of variable_names that can be read; the entries of a given mdict are kept unless overwritten.","every file, variable_names and mdict",INF,[I+":loadmat"])
p("read()/reads() default options","The module level read functions use matlab_compatible=False unless the caller gave matlab_compatible or options.","every keyword set",INF,[I+":read",I+":reads"])
p("delete_unused_variables leaves exactly the written fields","After writing a dict with string keys (or a record stored like one) with delete_unused_variables the Group contains exactly its fields; without it previously existing other entries are kept and read as before.  A field whose value is discarded (MATLAB-incompatible numpy type, action discard) is not written: what was there under its name stays.  A dict with other keys leaves exactly the two entries for keys and values, whatever the option is.","every previous Group content and every dict",INF,[M+":PythonDictMarshaller.write"])
p("Type tables are mutually inverse","For every builtin marshaller, every type it writes gets a type string which maps back to that type, and every type string is claimed by exactly one builtin marshaller.","every builtin marshaller and type","the tables interact through collection priority",[M+":TypeMarshaller.update_type_lookups",I+":MarshallerCollection"])
p("Reader dispatch","read_data picks the marshaller by Python.Type if present, else by MATLAB_class, else by dtype, else 'struct' for Groups, and falls back to the numpy marshaller when none is found, using read if its modules are present and read_approximate otherwise.","every attribute set and collection",INF,[U+":LowLevelFile.read_data"])
p("MATLAB-only metadata is interpreted","Reading a Dataset with only MATLAB attributes gives a numpy array with the order of the dimensions reversed (complex for compounds of a real and an imaginary part), of bools for logical, of the texts along the rows for char, of the objects referred to for cell; with MATLAB_empty an array without elements, of the type of the class and of the stored shape (not reversed); for an unknown class the data as they are.  The options do not matter.","every dataset with MATLAB attributes",INF,[M+":NumpyScalarArrayMarshaller.read"])
p("Plugins are loaded robustly","With load_plugins the plugin marshallers are exactly the marshallers returned by the entry points of a supported API version; plugins that raise, are not callable or return other objects never hinder the others.","every set of installed entry points and their behaviours",INF,[I+":MarshallerCollection.__init__","src/hdf5storage/plugins.py:find_thirdparty_marshaller_plugins"])
p("Reading does not need the options used for writing","What read and reads do with a file depends on reverse_dimension_order, structs_as_dicts, the keys/values names and group_for_references only; data written with Python metadata, MATLAB compatible and without letting incompatible types through, reads back with every options that have the references Group at the same place, other data with options of the same order of dimensions.","every file, every value, every pair of options",INF,[M+":NumpyScalarArrayMarshaller.read",I+":read"])
p("Writer dispatch","write_data writes with the first marshaller, highest priority first, that declares exactly the class of the data (base classes do not count), all of whose modules are imported then; if there is none or its modules are missing it raises NotImplementedError.","every class, set of marshallers, priority order, module environment and history of the collection",HIST,[U+":LowLevelFile.write_data",I+":MarshallerCollection.get_marshaller_for_type"])
p("Structured numpy data round-trips","Writing a structured numpy array, matrix, recarray or scalar and reading it back gives the same container, shape, field names in their order, field dtypes and values; fields may hold subarrays, objects and structured data again, nested to any depth.","every structured dtype, shape and contents, every option setting with Python metadata",INF,[M+":NumpyScalarArrayMarshaller.write",M+":NumpyScalarArrayMarshaller.read"])
p("MATLAB structs are interpreted","Reading a Group with MATLAB_class struct and MATLAB attributes only gives, with structs_as_dicts, a dict with exactly the fields that can be read and their values, otherwise a structured array: of one element if a field is stored directly, else of the elements referred to with the order of the dimensions reversed; the fields are in the order of MATLAB_fields, then sorted, and have the dtype and shape their values have in common or are object fields.  An empty struct gives an empty structured array of the stored shape.","every struct Group with MATLAB attributes, every number of fields and elements",INF,[M+":NumpyScalarArrayMarshaller.read"])
p("Writing what can be written raises nothing","Writing a value of supported types, nested to any depth, to an acceptable path with nothing but Groups on the way to it succeeds, whether or not something is there already and whatever else is in the file; a value that also survives a round trip then reads back equal. Conditions: names that can be stored (ASCII for MATLAB compatible Groups), types not forbidden by the options, gzip if compressing, a recursion limit large enough.","every value, option setting, path and history of the file, including files with a references Group made by somebody else",HIST,[I+":File.write",I+":File.writes",U+":LowLevelFile.write_data",U+":LowLevelFile.write_object_array",M+":NumpyScalarArrayMarshaller.write",M+":PythonDictMarshaller.write"])
p("Overwriting replaces","After a value was written to a path that was in use already, reading it gives the new value with nothing of the old one left, after any sequence of such writes and of operations elsewhere.","every pair of values, every history, every option setting with Python metadata",HIST,[U+":set_attributes_all",U+":write_data",M+":NumpyScalarArrayMarshaller.write",M+":PythonDictMarshaller.write",I+":File.write"])
p("Stored references stay valid","However a file is used, writing, overwriting, deleting, closing and reopening it, successfully or not, every object reference in every Dataset of it leads to an object that is in the references Group; nothing referred to is removed from there or replaced. Conditions: it was so in the beginning, the object with the name 'a' there, if any, is the canonical empty, and the random names drawn within one call do not repeat. Deleting the references Group itself is not covered.","every file, every value, every history of calls and of reopening with other options",HIST,[U+":LowLevelFile.write_object_array",U+":LowLevelFile.next_unused_ref_group_name",I+":File.writes",I+":File.__delitem__"])
p("Files written with matlab_compatible are as MATLAB expects them","Every object in a file written with matlab_compatible (and incompatible data not ignored) has a MATLAB_class that fits the type of its elements, at least two dimensions, none zero; arrays without elements are marked with MATLAB_empty and hold their dimensions; MATLAB_int_decode, if there, is the element size; Groups are structs or have no class. This is kept by every sequence of method calls, successful or not, and by savemat and writes. A value written to an unused place has the MATLAB_class documented for it.","every value, every history of calls, every file state, every options with matlab_compatible",HIST,[M+":NumpyScalarArrayMarshaller.write",M+":PythonDictMarshaller.write",U+":write_object_array",I+":File.writes",I+":savemat","doc/source/storage_format.rst"])
p("Writing to the root Group","Writing a dict (or a record stored like one) without giving a path, or with a path of the root Group, stores its values under their names in the root Group: each reads back under its name, and reading the root Group gives the dict, without the references Group. Writing anything but a mapping or a structured array there raises an exception; the file is not changed, unless elements of a container were written already.","every dict, record and other value, every option setting with Python metadata, every history of the file",HIST,[I+":write",I+":File.write",I+":File.read",M+":PythonDictMarshaller.write",M+":PythonDictMarshaller.read"])
p("Attributes are exactly the documented ones","Something written to an unused place has exactly the attributes documented for its type (Python.Type, Python.Shape, Python.numpy.UnderlyingType, Python.numpy.Container, Python.Empty, Python.Fields, Python.dict.*, MATLAB_class, MATLAB_empty, MATLAB_int_decode, MATLAB_fields) with the documented values, and no others: the Python ones with store_python_metadata, the MATLAB ones with matlab_compatible.","every value that is not discarded, every options, every history of the file",INF,[M+":TypeMarshaller.write_metadata",M+":NumpyScalarArrayMarshaller.write_metadata",M+":PythonDictMarshaller.write_metadata","doc/source/storage_format.rst"])
p("Stored layout at every depth","A value written to an unused place is stored, at every depth, as documented: values without parts as a Dataset holding the data (or the shape, if there are no elements and that is asked for); dicts and records as a Group with exactly one entry per field that is not discarded, under its escaped name (or the entries for keys and values); structured arrays as a Group of their fields or columns if asked for or needed, else as a compound Dataset; object arrays, lists and the like as a Dataset of references in the documented shape and order, each leading to the layout of the element in the references Group, or to the canonical empty for elements that are discarded. Every object has exactly the documented attributes, and those in other containers H5PATH with the name of the Group they are in, if matlab_compatible.","every value of documented types nested to any depth, every options, every history of the file",HIST,[M+":NumpyScalarArrayMarshaller.write",M+":PythonDictMarshaller.write",U+":LowLevelFile.write_object_array",U+":LowLevelFile.write_data","doc/source/storage_format.rst"])
p("Text is stored in the documented encoding","str and arrays of str are stored as uint16 in UTF-16 if convert_numpy_str_to_utf16 is set and no character needs a UTF-16 doublet, else as uint32 in UTF-32, the characters of the strings side by side in the last dimension; bytes, bytearrays, large ints, np.dtype objects and arrays of bytes as uint16 in UTF-16 if convert_numpy_bytes_to_utf16 is set and they are ASCII, else as bytes.  Then the dimensions are treated as for other data.","every text, every shape, every option setting, every history of the file",HIST,[M+":NumpyScalarArrayMarshaller.write",U+":convert_numpy_str_to_uint16",U+":convert_numpy_str_to_uint32","doc/source/storage_format.rst"])
p("Inherited mapping methods","File is a MutableMapping: get, pop, popitem, clear, update, setdefault, items and values behave as for a dict. get, pop and setdefault give what is read at the path, or the default if nothing is there; pop and popitem remove exactly what they give; clear comes to an end and leaves nothing but the references Group; update writes what writes would write; items and values are the names in the root Group, without the references Group, and what is read there.","every file state, history of operations, path, value and order of names",HIST,[I+":File",I+":File.__getitem__",I+":File.__iter__",I+":File.__delitem__",I+":File.__setitem__"])
p("np.dtype objects are recreated","convert_dtype_to_str gives a text that, passed through ast.literal_eval and then to the constructor of numpy.dtype, recreates the dtype, so that different dtypes have different texts; a numpy.dtype written to a file reads back as the same dtype: any nesting of structures and subarrays, any names and titles, any sizes and byte orders, fields with gaps or out of order.","every numpy.dtype, every option setting with Python metadata",INF,[U+":convert_dtype_to_str",M+":NumpyDtypeMarshaller.write",M+":NumpyDtypeMarshaller.read"])
p("MATLAB form without Python metadata","What is written with matlab_compatible and without store_python_metadata reads back in its MATLAB form, at every depth: numbers as arrays of the same dtype with the same elements and at least two dimensions, text as an array of the rows of its matrix of characters (a str as a (1, 1) array holding it), lists and object arrays as object arrays of at least two dimensions of what the elements read as, arrays without elements as such of the dtype of their class, dicts, records and structured arrays as dicts of their fields with structs_as_dicts and otherwise as structured arrays (shape (1,) for one element, else of the same shape, with at least two dimensions) with the dtype the values of a field have in common or object.","every value MATLAB has a class for nested to any depth, every options with matlab_compatible and without Python metadata for writing, every options with the references Group at the same place for reading, every history of the file",HIST,[M+":NumpyScalarArrayMarshaller.write",M+":NumpyScalarArrayMarshaller.read",M+":PythonDictMarshaller.write",U+":LowLevelFile.read_data"])
p("Paths as bytes and pathlib objects","A path given as bytes means what the text they encode in UTF-8 means; a pathlib.PurePath means what the path it was made from means as a str, in any spelling (a PureWindowsPath: what its names mean, whatever the drive); every reading, writing and asking method does the same for paths that mean the same.","every text, every bytes, every PurePosixPath and PureWindowsPath, every file",INF,[PE+":process_path"])
p("Which options and collections are shared","A File opened with an Options object keeps the values that object had at that moment, whatever is assigned later; different Options objects do not influence each other; a MarshallerCollection is one object for all Options and Files that use it, so that adding a marshaller reaches also Files already open; Options without a collection use the default one of the moment they are made, and make_new_default_marshaller_collection replaces it for later ones only, or raises and leaves it.","every history of making, assigning and opening, any number of Options, collections and Files",HIST,[I+":File.__init__",I+":Options.marshaller_collection",I+":get_default_marshaller_collection",I+":make_new_default_marshaller_collection"])
p("writes is a sequence of single writes","writes writes the values one after the other in the order of the mapping: it does what single writes in that order do. If it raises at one of them, all values before that one are written completely and read back (their places having been unused and apart from each other), and at the places of those after it nothing was made.","every mapping, value, option setting and history of the file; every value at which writing fails and every way in which it fails",HIST,[I+":File.writes",U+":LowLevelFile.write_data"])
p("Memory layout and byte order do not matter","What is stored for an array of strings or bytes, and what the conversions between strings, bytes and unsigned integers give, depends on its elements only, not on how it lies in memory (C or Fortran order, slices, negative strides), nor on its byte order or that of the machine.","every array of str, bytes, uint8, uint16 or uint32: every shape, strides, address and byte order, machines of both byte orders",INF,[U+":convert_numpy_str_to_uint16",U+":convert_numpy_str_to_uint32",U+":convert_to_str",U+":convert_to_numpy_str",U+":convert_to_numpy_bytes",M+":NumpyScalarArrayMarshaller.write"])
p("Marshallers of users round-trip their types","An object of a user's own class that is written by a marshaller inheriting from the numpy, list or dict marshaller reads back as what the marshaller's conversion makes of the data it handed to its parent (as a list or dict if that was its parent), hence as the same object if its conversions are inverse; also later, however the file is used elsewhere, and in other sessions in which the same marshaller is the one for its type string. Values of builtin types in the same file read back as before unless the marshaller claims their type strings with priority. Exception: a record array handed to the numpy marshaller comes back as an ordinary structured array.","every marshaller, conversion, collection, priority, object and data it hands over, option setting with Python metadata and history of the file",HIST,[M+":TypeMarshaller.write",M+":TypeMarshaller.read",M+":TypeMarshaller.get_type_string",U+":LowLevelFile.write_data",U+":LowLevelFile.read_data",I+":MarshallerCollection","examples/example_hdf5storage_marshaller_plugin"])
p("Objects of users read without their marshaller","If no marshaller claims the type string of an object of a user's own class, what its marshaller handed to the numpy marshaller is read, or an object array of the elements of the list it handed over. If its marshaller is there but not the modules it needs, read_approximate of it decides, and without that NotImplementedError is raised.","every marshaller, collection, object, option setting with Python metadata and history of the file",HIST,[U+":LowLevelFile.read_data",M+":TypeMarshaller.read_approximate",I+":MarshallerCollection.get_marshaller_for_type_string"])
p("Data outlives the with statement","'with File(...) as f' closes the file however the block ends, passes an exception of the block on, and leaves on disk what the calls made in the block did, in this file only; read-only it changes nothing. The functions write, writes, read, reads, savemat and loadmat are such statements. A value written in one is read back after any number of later ones, with this file and others, that do not truncate the file or touch its place.","every block (any sequence of calls depending on the results, ending normally or by an exception), arguments, disk content and program of such statements",HIST,[I+":File.__enter__",I+":File.__exit__",I+":File.__init__",I+":writes",I+":write",I+":reads",I+":read",I+":savemat",I+":loadmat"])
p("Load, save, load","What was read from data stored with matlab_compatible and without Python metadata (as those of C66), written again with Python metadata to an unused place of any file with any options, reads back exactly as it was read the first time: nothing is converted twice. structs_as_dicts is the same both times; structured arrays without elements are excepted.","every value MATLAB has a class for nested to any depth, every options of both sessions, every history of both files",HIST,[M+":NumpyScalarArrayMarshaller.write",M+":NumpyScalarArrayMarshaller.read",M+":PythonDictMarshaller.write",M+":PythonDictMarshaller.read"])
p("Copying one file into another","Any number of variables, of any kinds and nesting, written with one call of writes or update to unused names of a file are written without an exception and all read back equal. f.update(g) copies every variable of the file g into f: f then gives under every name in g the value that g gives, whatever the options of g, and everything else in f stays as it was, even if copying raises an exception in the middle.","every list of variables, every content and option settings of both files, every history of f",HIST,[I+":File.__setitem__",I+":File.__getitem__",I+":File.__iter__",I+":File.writes"])
p("Deeply nested data is read whole or not at all","Python's recursion limit decides only whether data can be written and read, not what is written or read: with every limit that is not smaller than the nesting of the data writing and reading do the same, a write that raised nothing does the same with any larger limit, and a value written under any limit is read back whole under every limit not smaller than its nesting. If data is nested too deep an exception is raised.","every value and nesting, every recursion limit of the writing and the reading program, every file",INF,[U+":LowLevelFile.write_data",U+":LowLevelFile.read_data",M+":NumpyScalarArrayMarshaller.read",M+":PythonDictMarshaller.read"])
p("Reading a dict gives exactly its readable members","Reading a Group that is marked as a dict (or a struct of MATLAB with structs_as_dicts, or a Group without metadata as a structured array) gives exactly those of its members that can be read, apart from the Group of the references: each value is what the member reads as by itself, each key stands for the unescaped name of the member, no two keys are equal, and no member that can be read is missing. What cannot be read is left out without an exception.","every file, also those not written by the package: any attributes, names and contents of the members, any member unreadable for any reason",INF,[M+":PythonDictMarshaller.read",M+":NumpyScalarArrayMarshaller.read",U+":LowLevelFile.read_data"])
p("What is read without any metadata","With store_python_metadata and matlab_compatible both off, what is made of numbers, text, lists and the like, object arrays, dicts, records and structured arrays is read back as the Datasets and Groups alone show it: arrays as they were stored (without conversions exactly the array that was written, structured ones in compound Datasets included), lists and the like as object arrays of what their elements are read as, and everything with fields as a structured array, with one element, or, if all fields are Datasets of references, with the shape of the last one, the elements others have less being zeros; its fields are sorted by name. A dict whose values all are lists is therefore read as a structured array with as many elements as the list of the last key has, and raises IndexError on reading if another one is longer (finding F62).","every such value at every depth, every file in use and every free place in it, all other options of writing, all options of reading with the same place for the references",INF,[M+":NumpyScalarArrayMarshaller.read",M+":PythonDictMarshaller.write",U+":write_object_array",U+":read_object_array",U+":convert_numpy_str_to_uint32"])
p("The keys of a file are a set","f.keys() does with a set of names what the set of the names in the root Group (but that of the references Group) does: <=, >=, ==, isdisjoint, &, |, -, ^, on either side.","every history of the file, every set of names",HIST,[I+":File.__contains__",I+":File.__iter__",I+":File.__len__"])
p("convert_to_numpy_bytes encodes in UTF-8","convert_to_numpy_bytes turns every text it is given (str, numpy str, arrays of str, UTF-16 or UTF-32 in arrays of unsigned integers) into the bytes of its UTF-8 encoding, whole and at the same place, so that convert_to_str gives the text back.","every text without trailing NULs, every array of texts of any shape",INF,[U+":convert_to_numpy_bytes",U+":convert_to_str"])
with open(os.path.join(os.path.dirname(__file__),"..","properties.jsonl"),"w") as f:
    for x in P: f.write(json.dumps(x)+"\n")
print(len(P))
