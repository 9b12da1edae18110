# Formal model of hdf5storage (Lean 4) — design

Source modelled: /repo/src/hdf5storage (`pathesc.py`, `utilities.py`, `Marshallers.py`, `__init__.py`,
`plugins.py`). Line numbers in comments refer to those files at the pinned commit.

## Layout

* `lean/Verif/Model/*.lean` — the model, function by function, each definition citing file:lines.
* `lean/Verif/Spec/*.lean` — small independent specifications used in theorem statements.
* `lean/Verif/Lemmas/*.lean` — helper lemmas.
* `lean/Verif/Props/*.lean` — the property theorems (`C01_...`), with an `example` beside each showing that
  concrete non-trivial cases meet the hypotheses.
* `seeded/LOG.jsonl` — log of deliberately broken models and which theorems caught them.
* `MANIFEST.json` — status of each property.

## Modelling conventions

* Python `str` is `List Nat` (code points, so that lone surrogates, which Lean's `Char` excludes, are included).
  `bytes` is `List Nat` with a byte predicate where needed. Exceptions are values: `Except Exc α`.
* Regular expressions are transcribed as ASTs of a small backtracking regex engine (Python semantics: ordered
  alternatives, greedy repetition, leftmost search, non-overlapping `sub`).
* `posixpath` functions follow the CPython 3 sources.
* HDF5/h5py is modelled by a heap of objects (Datasets/Groups with attributes), Groups holding named links.
* numpy arrays are (dtype, shape, elements in C order).

## Findings about the code (places where a documented property is false of the code)

Each is proved in the model as a counterexample theorem next to the `_partial` theorem.

* F1 (`pathesc.py:233-235`) `unescape_path` collapses double backslashes *after* decoding hex escapes, so
  `'\x5c\x5c'` (two escaped backslashes) gives one backslash.
* F2 (`Marshallers.py:796-798`) `oned_as='column'` has no effect: the transposed array is bound to `new_data`, not
  `new_data3`.
* F3 (`utilities.py:1431-1439`) `set_attributes_all` leaves an existing attribute untouched (stale) when its dtype or
  shape differs from the new value: overwriting a list by a tuple of the same length reads back as list.
* F4 (`Marshallers.py:1803-1813`) keys `'a'` and `b'a'` of one dict escape to the same name; the first value is lost.
* F5 (`utilities.py:1007-1009`) big-endian view plus numpy's trailing-NUL stripping: a str whose last UTF-16/32 code
  unit is a multiple of 256 (e.g. U+4E00) cannot be read back (decode error); trailing NULs are dropped.
* F6 (`utilities.py:850`) `decode("UTF-32")` eats a leading U+FEFF: str starting with a BOM loses it on read.
* F7 (`__init__.py:2132`) `__iter__` uses `dropwhile`, so the references Group is only hidden if it sorts first;
  `len(f)` and `list(f)` then disagree and `loadmat` fails.
* F8 (`__init__.py:1666`) `_writable` is always True: the read-only check never fires.
* F9 (`__init__.py:1899-1907`) for a nested `group_for_references` ('/a/refs') sibling paths ('/a/b') are rejected too.
* F10 (`__init__.py:728-731`) `group_for_references='//'` (root) is accepted.
* F11 (`__init__.py:1340-1350`) a failing `add_marshaller([ok, bad])` leaves `ok` in the user list without updating.
* F12 (`utilities.py:1255-1276`, `__init__.py:691`) `complex_names` may be any two str, but reading only recognises
  r/re/real and i/im/imag/imaginary; ('i','r') swaps the parts.
* F13 (`Marshallers.py:1386,1417`) data written with reverse_dimension_order but without MATLAB metadata and read without that
  option is silently scrambled (not transposed, then reshaped).
* F14 (`Marshallers.py:1847` vs `2001-2004`) keys/values names are written raw but looked up escaped.
* F15 (`Marshallers.py:782-783`) a 0-d str ndarray raises IndexError when converting to UTF-16.
* F16 (`Marshallers.py:1853-1858`) writing a dict to '/' with delete_unused_variables unlinks the references Group while the
  LowLevelFile keeps its stale handle.
* F17 deque loses maxlen.
* F18 (`__init__.py:2715`) `loadmat` sends CantReadError (an OSError) to scipy.
* F19 (`pathesc.py:317-325`) the relative path '..' is not stable under re-processing (C06_counterexample).
* F20 (`__init__.py:1242`) with lazy_loading=False an import raising anything but ImportError leaves new marshaller list and old
  lookup tables: lookups return marshallers that do not declare the key.
* F21 (`utilities.py:616-644`) a name of the random kind that was asked for and not yet used can be returned again
  (C17_counterexample); asked for before the references Group exists, the first name is a random one.
* F22 the width of a numpy str dtype shrinks to the longest string on reading (dtype `<U5` holding 'ab' reads as `<U2`).
* F23 (`utilities.py:494`, `Marshallers.py:1862-1871`, H5PATH) `np.bytes_` of a non-ASCII Group path raises UnicodeEncodeError in MATLAB mode.
* F24 CPython's 4300 digit limit: larger ints are written as text but `int()` refuses them on reading (not modelled).
* F25 a str with lone surrogates is written as uint32 but cannot be read back.
* F26 (`Marshallers.py:1871`, `utilities.py:494`) `attrs.modify` on an existing H5PATH keeps its old length and truncates the new value.
* F27 (`Marshallers.py:960-990`) overwriting an lzf or szip Dataset by data of the same dtype, shape and filters raises
  (C27_counterexample_lzf).
* F28 equal `dict_like_keys_name` and `dict_like_values_name` lose the keys.
* F29 the `fold` of time and datetime is not stored.
* F30 a dict written to '/' with a key that is the name of the references Group collides with it.
* F31 overwriting or deleting an ancestor of a nested references Group deletes it; the cached handle dangles.
* F32 (`__init__.py:2207-2237`) `__delitem__` is not guarded against the references Group.
* F33 (`__init__.py:1870`) `File.write` and `f[path] = v` with a list as path raise TypeError (unhashable).
* F34 missing Groups of the path are made before an incompatible type raises or is discarded (C28_counterexample).
* F35 (`__init__.py:2117-2134`) the iterator returned by `__iter__` is evaluated lazily, outside of the lock. `list(f)` can see half of a call of `writes` (C41_counterexample).
* F36 float16 arrays of two or more dimensions written MATLAB-compatible with action 'ignore' and read by `read()` are scrambled.
* F37 data written with matlab_compatible=False and read with the default options of `File` or by `loadmat` are scrambled
  (C52_counterexample; same cause as F13).
* F38 savemat/loadmat provide for bytes file names, but `File` raises TypeError for them (C44_counterexample).
* F39 a dict field whose value is discarded keeps its old value in the file, even with delete_unused_variables (C47_discarded).
* F40 other spellings of group_for_references ('//refs', '/refs/') are not hidden by `len` and iteration.
* F41 a field of strings of different lengths in a structured array reads back as an object field (C54_counterexample_strings).
* F42 an object field that holds numpy data of one dtype and shape reads back as a field of that dtype (C54_counterexample_object).
* F43 structured arrays without elements read back with object fields (C54_counterexample_empty).
* F44 with action 'discard' a float16 field of a structured scalar is left out, and the scalar cannot be read any more: KeyError
  (C54_counterexample_discard).
* F45 (`utilities.py:443-467`) an object with the name 'a' in the references Group of a file of somebody else is replaced by a canonical empty whenever an object
  array is written, also if something refers to it (C58_counterexample_a).
* F46 a structured array without elements with a field name that cannot be encoded: `write` raises UnicodeEncodeError but leaves a Dataset without its class
  (C59_counterexample).
* F47 (`doc/source/storage_format.rst`) the documentation differs from the code: Counter is documented to have MATLAB_class 'struct' but gets none; Python.Type of an
  int is 'long', not 'int'; np.bool_ is 'numpy.bool_', not 'numpy.bool'; Python.dict.StoredAs is 'individually', not 'individual'.
* F48 a structured array with fields 'r' and 'i' of one floating point type, stored as one Dataset, reads back as complex numbers (C54_counterexample_complex).
* F49 (`Marshallers.py:984-1000`) writing a structured array with a field of str as one Dataset raises TypeError, and what was at that place before is deleted
  (C54_counterexample_str).
* F50 (`Marshallers.py:2040-2060`) a dict with the key '#refs#' can be written to the root Group, but that entry is skipped on reading (C60_counterexample_key).
* F51 (`Marshallers.py:1856-1858`) writing a dict to the root Group with `delete_unused_variables` deletes the references Group, which the `File` may have open: what is
  then stored for lists is in the unlinked Group and lost on closing (C60_counterexample_dangling).
* F52 (`storage_format.rst:276-290`, `Marshallers.py:1060-1084`) Python.Fields is documented for all structured arrays, but is not set for those stored as one Dataset with a
  compound type; the UnderlyingType of a recarray is 'record#', not 'void#'; H5PATH is documented for every object outside of the root Group, but set only for fields of
  Groups and for elements in the references Group (not for something written to '/a/b').
* F53 (`Marshallers.py:769-788`, `storage_format.rst:130-143`) that UTF-16 needs doublets is noticed only by the width: np.array(['ab', '𝄞']) is stored as uint16 with a doublet
  (C63_counterexample_doublets), an array all of whose strings are shorter than its dtype is wide as uint32 though it needs no doublets (C63_counterexample_short), and an array of
  shape (0, 3) as uint32.  Bytes that are not ASCII are stored as they are; footnote [6] says that NotImplementedError is raised.
* F54 (`__init__.py:1519`, `2147-2156` of `Marshallers.py`) a `KeyError` raised while reading something that is there is taken for its absence by the inherited methods: after a part of a stored slice was
  deleted, `get` gives the default though the path is in the file, and `clear()` stops without an exception and leaves it and everything after it (C64_counterexample_keyError);
* F55 (`utilities.py:681-685`, `Marshallers.py:1563`) the dtype of a recarray (scalar type `np.record`) is written as `(numpy.record, [...])`, which `ast.literal_eval` refuses: writing such a `np.dtype` succeeds, reading it raises ValueError.
* F56 (`Marshallers.py:1231`) with `structs_as_dicts` the fields of a structured array of several elements are object arrays with the dimensions in the order of the file, that is reversed; read as a structured array (without the option) the dimensions are reversed back.
* F57 (`pathesc.py:288-293`) `PurePosixPath('.')`, `PurePosixPath('//')` and a `PureWindowsPath` of only a root make `posixpath.join` get no arguments: TypeError, though their `str()` is a valid path to the root Group. A root of two slashes is dropped, so `PurePosixPath('//../a')` is taken for `../a`, whereas `'//../a'` is `//a`.
* F58 (`utilities.py:779`, `838-850`) `convert_numpy_str_to_uint32` views the bytes of an array as native uint32 and `convert_to_str` decodes bytes as native UTF-16/32:
  for arrays in the other byte order (`>U5`, `>u2` on a little-endian machine) the code points are byte-swapped. Writing a `>U` array that is stored as UTF-32 stores wrong numbers
  which cannot be read back (`C70_str_to_uint32_counterexample`, `C70_to_str_counterexample`).
* F59 (`Marshallers.py:750-753`, `utilities.py:1153-1157`) with `convert_numpy_bytes_to_utf16` an array of bytes whose last axis is not contiguous (Fortran order, transposed,
  `a[::2]`) cannot be written: `view(np.uint8)` raises `ValueError`; likewise `convert_to_numpy_bytes` for uint8 arrays that are not C contiguous
  (`C70_bytes_stored_raises`, `C70_bytes_stored_counterexample`, `C70_to_numpy_bytes_counterexample`).
* F60 (`Marshallers.py:1420-1423`) a marshaller that inherits from the numpy marshaller and hands it a record array with its own type string gets an ordinary structured array
  back: reading makes a record array only if Python.Type is 'numpy.recarray', although Python.numpy.Container says 'recarray' (`C71_recarray`).
* F61 members of dicts, records and structs whose reading raises any exception are left out (`contextlib.suppress(Exception)`, Marshallers.py:1230, 2042), also if it is
  `RecursionError`: of a deeply nested dict only the upper levels are read, without an exception
* F62 without Python metadata and MATLAB attributes, nothing tells a dict whose values all are lists from the columns of a structured array: it is read as a structured array with as
  many elements as the list of the last name (in sorted order) has (Marshallers.py:1251-1314, `C78_lists_together`). Shorter lists are filled with zeros silently; if that list is empty, nothing
  is left of the others; if one of them is longer, `IndexError` is raised on reading, writing it having been no error (`C78_lists_longer`).
* F63 `f.keys()` tests its own elements with `__iter__` and those of others with `__contains__`, which takes any path and finds the references Group too: `f.keys() & {'a', '/a', '#refs#'}` has three
  elements, `f.keys() >= {'/a'}` is true (`__init__.py:2070-2133`, `C79_counterexample`).
* F64 `convert_to_numpy_bytes` gives the result for uint16 and uint32 arrays as many bytes per string as there are code units, so that the UTF-8 encoding of other text than ASCII is cut without an error:
  `np.uint16([233])` (é) becomes `b'\xc3'` (`utilities.py:1164-1177`, `C80_counterexample`); reading `bytes` stored as UTF-16 uses this only for ASCII (C63).

## Plan per property

| id | what is modelled | how proved |
|----|------------------|------------|
| C01 | regexes + escape_path/unescape_path | regex engine facts, then induction on the string |
| C02, C03 | escape_path | induction; C03 from C01 |
| C04 | unescape_path vs. a tokenizer spec | equality on strings with no hex-escaped backslash (`_partial`), counterexample F1 |
| C05 | process_path on sequences, posixpath.join/normpath/dirname/basename | component lemmas, C02, C03 |
| C06 | process_path on str | normpath idempotence, component semantics |
| C07 | the commonpath guard of writes/reads | component prefix semantics; exact for one-component reference Groups, F9 counterexample |
| C08–C10 | Options class with arbitrary assigned Python values | invariant over setter sequences; F10 |
| C51 | plugin loading | dict semantics by induction over the entry points |
| C11–C15 | MarshallerCollection as state machine with module environment | invariants over op lists; F11 |
| C16 | set_attributes_all over attribute maps with dtype/shape tags | per-key case analysis; F3 |
| C17 | name generator with counter / random stream | invariant over call histories |
| C18 | write/read_object_array on the heap | induction with heap-extension frame lemmas |
| C19, C20 | UTF-8/16/32 codecs, numpy view/strip semantics | codec round-trips; F5, F6 |
| C21 | encode/decode_complex on field-named pairs | case analysis; F12 |
| C22 | dtype trees, worklist loop | well-founded measure, loop invariant |
| C23–C28 | NumpyScalarArrayMarshaller write/read pipeline | transpose involution, reshape; F2, F13, F15 |
| C29–C34 | Python marshallers over recursive values | induction on values over the heap model; F4, F5, F6 |
| C35–C40 | File methods as state machine | heap frame lemmas; F7, F8 |
| C41 | threads, lock, atomic critical sections, the iterator of `list(f)` consumed without the lock | serialization theorem over all schedules; invariant for runs that only read |
| C42, C43 | open logic and header bytes; what HDF5 reads from the bytes (`OnDisk`, any function of the bytes after the userblock) and the model of the functions on whole files (`openDisk`), which the one on bytes refines | case analysis, length computation, crash prefixes |
| C44–C46 | savemat/loadmat/read wrappers | direct; F7, F18 |
| C47 | dict write group contents | set reasoning |
| C48 | type tables | whole finite table by kernel decision, lifted to lookups |
| C49, C53 | read_data / write_data dispatch over the collection model | case analysis on the lookups, C11, C13; C49_builtin_read ties it to the readers |
| C50 | MATLAB branch of read | on the array model, transposition by indices |
| C52 | reading options | readData is shown to depend on four options; induction on the fuel, per marshaller |
| C54 | structured arrays written as Groups and read back field by field, or as compound Datasets | as the other round trips: the writer's effects (frame lemmas), then the reader on what was written, fields by index; induction on the values of the fields of a compound |
| C55 | MATLAB branch of read on Groups and empty structs | the members as a list, then field by field; order of the fields by uniqueness of sorted lists |
| C56 | the whole writing path | progress: an invariant of the state from which every step goes on, by induction on the value; names drawn at random are the one source of failure |
| C57 | the writing path on places in use, set_attributes_all | an invariant of the place written to (what kind of object with which attributes is there) kept by every write, by induction on the value; counterexamples for stale attributes |
| C58 | write_object_array, next_unused_ref_group_name, File methods | invariant of the heap (references valid, 'a' canonical) kept by every write, by induction on the value, then by induction on the history; counterexamples for its provisos |
| C59 | the whole writing path, savemat, Options | an invariant of every object of the heap (`MatObj`) kept by every step, by induction on the value and the history; for the class the attributes of what is written to an unused place are determined (`wrote_new`) |
| C60 | write/read with a path that addresses the root Group: the dict marshaller at the root, the exclusion of the references Group on reading | the dict writer run at object 0 with the frame lemmas of the other writers; reading by the lemma for dicts generalised to a Group that also has the references Group in it |
| C61 | the attributes written by all marshallers (`npAttrs`, `dictAttrs`, `structAttrs`, `tableAttrs`) and set_attributes_all | a separate specification lists the documented attributes as an inductive relation between value, name and value of the attribute; both inclusions by cases on the type of the value |
| C62 | all writers (`writeData` and below), write_object_array, `File.write` | a separate specification gives the layout as an inductive relation between heap, names on the way, object and value (`Spec/Layout`); by induction on the recursion limit every writer establishes it for the new objects, in every later heap that has these objects and the entries of the references Group; the invariant of C58 gives the rest |
| C63 | `NumpyScalarArrayMarshaller.write` (text part), convert_numpy_str_to_uint16/32 | `Spec/Text` says which array is documented to be stored for text; each conversion step is shown to give it, and the remaining steps are those of C27; the same data are part of the layout of C62; counterexamples by evaluation |
| C64 | methods inherited from `collections.abc.MutableMapping` (Model/Mapping) over the `File` methods | by C35 (others stay readable), C38 (deletion), induction over the names not popped yet for clear; counterexamples by evaluation |
| C65 | `convert_dtype_to_str` and its inverse, with `str` of a dtype, `repr` of str, `ast.literal_eval` (a parser) and `np.dtype` of an expression (Model/DtypeStr) | the parser reads back what is printed, by mutual induction over expressions; `np.dtype` of the expression by mutual induction over dtypes; then C02-style file round trip (`file_rt`); counterexample by evaluation |
| C66 | the writers and readers as for C50, C55 and C62 together; `MatGood` (which values) and `AsMatlab` (what they read as) are inductive specifications by themselves (Spec/MatRead) | C62 gives the layout; induction over the layout `Laid`, each object read with C50 (Datasets) or C55 (Groups: as dict, one element, several elements) |
| C67 | `process_path` on bytes and `PurePath` arguments; how `pathlib` splits a text into root, parts and `str()` (Model/PurePath, from CPython's `PurePath._parse_path`) | joining the parts gives the text with its names kept and slashes normalised; then C06's characterisation of `process_path` on str |
| C68 | the objects of a process with identity: Options, collections, the default collection, the Options of each File (Model/Shared on top of the models of C08-C15) | invariant over all histories: Files and user refer to different Options objects; what each step keeps |
| C58, C62, C66 later | `UsedElsewhere` (Spec/Later): every further history, with other options and reopening, that does not touch the place | the frame relation `Away` (C35) composed over the history; induction over `Laid`, references being still valid by C58 |
| C69 | the loop of `writes` (Model/File) with an exception at any item | induction over the items: `StoredAt` of the earlier ones is carried on by the frame `Away` (C35), places of the later ones stay free; splitting of the loop at any point |
| C70 | arrays as bytes in memory with address, strides and byte order, on machines of both byte orders; the functions that look at bytes (Model/Memory) | refinement: on the elements in C order they are the functions of Model/Conv and Model/NpWrite; counterexamples where they are not (F58, F59) |
| C71 | marshallers of users for their own types: parent (numpy, list or dict), type string, arbitrary conversions, collection as in C13, C49, C53 (Model/User) | round-trip lemmas generic in the type string, the object as a black box; locality as in C35; counterexample for record arrays (F60) |
| C72 | the same, read with other collections | cases on who claims the type string and whether the modules are there; for dict parents what `NumpyScalarArrayMarshaller.read` makes of the Group (`BareDict`) |
| C73 | Model/Session: the block of a `with` statement as a tree of calls depending on the results; `withFile` on the disk of Model/Mat. Spec/Session: `Calls` (which calls a block makes), `LaterSessions` (programs of such statements). C73_with by induction on the block; the functions of the module by unfolding both; C73_persists by `Away` (C35) for each later session, with `Tree` kept by every session. |
| C74 | no new model: the writers and readers of C66, then those of C32; Spec/MatRead: `AsMatlab` strengthened (sizes, classes, widths of texts, names of fields), `HasEmptyStruct`. Induction on `AsMatlab`: what is read is `Good` (the values that survive a round trip), then C66 and the round trip of files |
| C75 | Model/Mapping: `mapUpdateFrom` (`MutableMapping.update` with a `File`); Spec/Copy: `Receives`, `Variable`. Progress of one write (C56) preserves what the next one needs, by induction on the variables; then C35_several; the names are those of C38 (partial because of F7, `C75_counterexample`) |
| C76 | no new model: the first argument of `writeData` and `readData` is the limit; Spec/Limit: `nesting` of values, `StoredDepth` of what is stored. A simulation through `bind` of all writers, instantiated with equality and with 'succeeds the same'; reading by induction on the depth with the congruence lemmas of C35. Partial: F61 (`C76_counterexample`) |
| C77 | `mergeItems` (Model/Read: `dict(items)` on keys that are strings) added to the dict reader; Spec/Members: `Member`, `Members`, `KeyedMembers`. Induction over the fields: what is among the items and what is missing; an invariant of `dict(items)` (`Merged`); the struct reader by the same on `readFields` |
| C78 | fields of different shapes in `buildStruct` (`spread`, `beyond`, `zeroVal`); Spec/PlainRead: which values (`PlainGood`) and what they look like (`AsPlain`). Induction over `Laid` (C62) with the reader on objects without attributes; the columns of a structured array are what looks like columns (`MultiAt`). the elements by an index argument (Lemmas/Spread); compound Datasets: what is stored (C62) determines the columns (Lemmas/PlainTable). F62 is `C78_lists_together` and `C78_lists_longer` |
| C79 | the set operations of `collections.abc.KeysView` over `__len__`, `__iter__`, `__contains__` (Model/Mapping); Spec/Views: what a set does. List induction, counting (a list without repetitions that is in another is not longer), and C38 |
| C80 | `convertToNumpyBytes` (Model/Conv). Induction over the strings; an encoding has at most four bytes per character, so the item size of the str array is enough |

## Trusted base

* Lean's kernel (4.33.0), which checks every proof. `decide +kernel` (used for closed examples and for finite tables) is
  evaluated by the kernel as well; nothing rests on compiled code.
* Axioms: at most `propext`, `Classical.choice`, `Quot.sound` for each theorem (checked with `#print axioms`, and by vcheck).
  No axioms of our own. No Mathlib module is imported.
* That the definitions in `Model/` say what the Python code does, and what CPython, numpy and h5py do where the code relies on
  them. This is not proved; each definition cites the lines it models and says where it simplifies.

### Modelled, function by function

* `pathesc.py`: all of it (regular expressions through a backtracking engine; `process_path` on str, bytes, PurePath and
  sequences of those), and posixpath's join, normpath, split, isabs, commonpath.
* `__init__.py`: `Options` (constructor and every setter, arbitrary values); `MarshallerCollection` (constructor, plugins, add,
  remove, clear, the three lookups, module loading); `File` (opening, header, close, flush, write,
  writes, read, reads, the mapping methods); the module functions `writes`, `write`, `reads`, `read`, `savemat`, `loadmat`.
* `plugins.py`: `find_thirdparty_marshaller_plugins`, `supported_marshaller_api_versions`.
* `utilities.py`: all but the docstrings: `does_dtype_have_a_zero_shape`, `LowLevelFile` (write_data, read_data,
  write_object_array, read_object_array, next_unused_ref_group_name, the references Group and the canonical empty), the string
  conversions, complex encoding, the attribute functions.
* `Marshallers.py`: the tables, `write`/`read` of all builtin marshallers (see Model/NpWrite, Write, Read, FieldType).

### Not modelled

* User and plugin marshallers other than those of Model/User (C71, C72): parents other than the numpy, list and dict marshallers, objects of users inside other values, MATLAB
  classes declared by them, classes of builtin values claimed by them.
* Byte orders other than the native one and non-contiguous inputs, except in Model/Memory (C70), which has the functions of
  utilities.py and the steps of the writers that look at an array's memory; the other models have values only.  Dtypes outside bool, (u)int8-64, float16/32/64, complex64/128,
  bytes, str, object and structured ones (Model/FieldType: packed, without titles, `np.record` not told from `np.void`; the elements of a compound
  Dataset are kept field by field; bytes of width 0 in one, and reading one with a nested pair of fields 'r' and 'i', are `.other`; recarrays with structured fields are
  excluded in C54).  Floats are bit patterns: nothing is computed with them.
* HDF5 failing, its limits, hard links made by others, and cycles (`Tree` in the statements); objects are never freed;
  identity of HDF5 objects is identity of heap indices.
* On a File opened read-only, the class of h5py's exception (`.other`).
* The marshaller collection changed while a File is open (which options and collection an open File has is C68; the readers and writers use the builtin marshallers). The reachable states (`Reach`) exclude writes to '/' itself and deleting an ancestor of
  the references Group (F30-F32 say what goes wrong there).
* The file system: errors, permissions, directories. The states of the disk while HDF5 writes; crash points are those of the
  header write (`Open.lean`).
* Threads: `threading.Lock` works, single attribute accesses are atomic.
* CPython's digit limit for int (F24). `deque.maxlen` (F17), `fold` (F29) are not part of the values.
