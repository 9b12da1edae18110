{
 "C04": {
  "note": "Full grammar is false of the code for hex escapes of a backslash (C04_counterexample, F1); exact on all other strings, errors exact on all strings."
 },
 "C06": {
  "note": "Stability fails exactly for the relative path '..' (C06_counterexample)."
 },
 "C07": {
  "note": "Safety direction proved in full; 'no other path' holds for one-level reference Groups and is false for nested ones (C07_counterexample, F9)."
 },
 "C10": {
  "note": "'//' (a spelling of the root) is accepted by the setter (C10_counterexample, F10)."
 },
 "C11": {
  "note": "If an import raises something other than ImportError during a non-lazy update the tables become stale (C11_counterexample_foreign_exception, F20)."
 },
 "C14": {
  "note": "New marshallers before the offending object stay in the user list (C14_counterexample, F11); everything else proved unchanged."
 },
 "C16": {
  "note": "Values are exact on fresh objects (C16_fresh) and whenever dtype and shape of an existing attribute agree; an existing attribute of another dtype or shape is left stale (C16_counterexample, F3)."
 },
 "C19": {
  "note": "False for strings whose last code point is a multiple of 256 (C19_counterexample, F5); proved for all arrays of all others."
 },
 "C20": {
  "note": "UTF-8 direction proved in full; the UTF-16/32 direction is false for strings starting with a byte order mark (C20_counterexample, F6)."
 },
 "C21": {
  "note": "Proved for every name pair the decoder knows; other names the option accepts are not decoded (C21_counterexample, F12)."
 },
 "C23": {
  "note": "Every option setting with Python metadata, any reachable file state, any unused path. Complex data need complex_names that reading recognises (C23_counterexample, F12); float16 is not written when incompatible types are discarded."
 },
 "C25": {
  "note": "Also for bytes and str dtypes (not the degenerate width 0). C25_stored: what the Dataset holds."
 },
 "C29": {
  "note": "CPython's 4300 digit limit of int() is not modelled (F24)."
 },
 "C30": {
  "note": "False for str ending in U+xx00 or with a leading U+FEFF and for bytes with trailing NULs (C30_counterexample, F5, F6, F25); proved for all others."
 },
 "C31": {
  "note": "False if two keys are equal as texts (C31_counterexample, F4) and for odd keys/values names (F14, F28); proved for all other dicts."
 },
 "C32": {
  "note": "deque's maxlen is not part of the value (F17)."
 },
 "C33": {
  "note": "The fold of time and datetime is not stored by the code and is not part of the value (F29)."
 },
 "C36": {
  "note": "Paths inside the references Group or malformed; paths outside it that share its first name are rejected as well (F9)."
 },
 "C37": {
  "note": "What reads raises is what the first failing read raises, provided all paths are acceptable; unacceptable paths raise first (C36)."
 },
 "C38": {
  "note": "Iteration is false for files with a name sorting before the references Group's (C38_counterexample, F7); the rest of the property is proved in full."
 },
 "C39": {
  "note": ""
 },
 "C40": {
  "note": "The flag checked is always True (F8), so OSError is not what is raised (C40_counterexample); that nothing changes is proved, given that HDF5 refuses to change a file opened read-only."
 },
 "C42": {
  "note": "HDF5 itself is modelled as far as where the superblock is looked for; crash points are all prefixes of the header write and the empty file before a new one. C42_content: what a File holds after opening, or OSError and the same bytes, for all arguments; C42_functions: the model of writes/reads/savemat/loadmat on whole files (openDisk) is refined by the one on bytes."
 },
 "C43": {
  "note": "For years 1000 to 9999 and any version text of up to 16 characters (header_spec)."
 },
 "C24": {
  "note": "With oned_as='column' the code stores a row all the same (F2, C24_counterexample); proved: what is stored for both settings."
 },
 "C26": {
  "note": "For all histories of method calls and all Datasets in the file, including nested ones and those in the references Group."
 },
 "C27": {
  "note": "Data, dtype, shape and filters of numeric data proved for any previous content; F3 (stale attributes on in-place overwriting) and F27 (lzf/szip) are counterexamples to reading back / succeeding."
 },
 "C28": {
  "note": "error/discard change nothing provided the containing Group exists; otherwise it is made first (F34, C28_counterexample)."
 },
 "C41": {
  "note": "Every interleaving of the steps of every call except list(f): __iter__ returns an h5py iterator consumed without the lock (F35), and C41_counterexample is a run in which list(f) sees half of a writes() call, which no order of the calls gives; if no thread writes, deletes or closes, list(f) is atomic too (C41_reading). Also: calls of one thread are ordered, and no call blocks forever (list(f) included)."
 },
 "C35": {
  "note": "Any sequence of File calls, successful or not, that writes or deletes nothing at, above or below a place leaves what is read there exactly as it was (value or exception), for every reachable state. Condition: what is stored there refers (by HDF5 object references) to nothing outside but the references Group, as in files of this package and of MATLAB; C35_counterexample shows the condition is needed, C35_no_references gives it for data without references, and C35_written_stays / C35_several do without it for values this package wrote; C58_self_contained / C58_reads_same give it for every place of a file used through this package. Writes to the root Group itself and deletions on the way to the references Group are excluded (F30-F32)."
 },
 "C52": {
  "note": "Which options matter is exact for every file. Data written with matlab_compatible=False needs the same order of dimensions to be read, and so do >= 2-dimensional float16 arrays written with action 'ignore' (C52_counterexample, F36, F37)."
 },
 "C09": {
  "note": ""
 },
 "C44": {
  "note": "bytes names, which both functions provide for, raise TypeError in File (C44_counterexample, F38); for str names proved in full. Files are named entries of a disk; SciPy's functions are not modelled beyond the arguments they are called with."
 },
 "C45": {
  "note": "variable_names: proved for every HDF5 file. All variables: proved for files whose names all sort after the references Group's (C45_counterexample, F7). C45_savemat_loadmat: what savemat wrote to a new or truncated file is what loadmat returns, end to end."
 },
 "C46": {
  "note": "C46_write_read: the write and read functions end to end on a disk, with their different default options."
 },
 "C17": {
  "note": "All histories of asking for names, writing under returned names and writing object arrays on any reachable file. Names returned and used never repeat; if this File made the references Group no name repeats at all. Without that a pending random name may repeat: C17_counterexample (finding F21). The first call before the Group is known is C17_first."
 },
 "C18": {
  "note": "C18_refs: any values, any state, any options. The object for discarded elements is shown to be the canonical empty if this File has not dealt with it before. C18_read: elements that survive a round trip (the Good values of C29); random names, if drawn, distinct."
 },
 "C48": {
  "note": "For any marshaller whose tables have the same length and no duplicates, and for the tables of the 14 builtin classes; C48_collection ties it to the lookups of any collection whose other marshallers do not claim the type or the type string."
 },
 "C49": {
  "note": "Any collection after any history; C49_builtin_read: the model of reading used for the round trips is what the chosen builtin marshaller does."
 },
 "C50": {
  "note": "Datasets of numbers, complex, logical, char, cell, struct, MATLAB_empty and unknown classes; Groups and Datasets with MATLAB_fields (structs) are read by the same code and not part of this statement."
 },
 "C53": {
  "note": "Modules missing means: the lookup reported them as missing (C13 says when)."
 },
 "C54": {
  "note": "Proved for structured data with at least one element, nested to any depth: stored as a Group (always so with the default options, or if HDF5 has no type for it, C54_structured_partial) or as one compound Dataset (C54_compound_partial); C54_group_or_dataset says which of the two; read with every options that keep the order of dimensions or when the file tells it. Missing and refuted: empty ones (F43), in Groups strings shorter than their field (F41), object fields of uniform numpy data (F42), discarded fields (F44); in compounds fields 'r' and 'i' (F48) and str (F49)."
 },
 "C55": {
  "note": "For every file (view) whatsoever; fields of a struct array are assumed to have the same shape, values to be well-formed (Sized)."
 },
 "C56": {
  "note": "Conditions are collected in Writable and CanWrite (Spec/Progress); the exceptions they exclude are findings F15, F23, F27. With a references Group made by somebody else names are drawn at random: C56_write_succeeds and C56_foreign_refs say when that can go on for ever."
 },
 "C57": {
  "note": "Partial because the claim is false as it stands (finding F3): set_attributes_all keeps an old attribute whose dtype or shape differs from the new one (utilities.py:1431-1439), and without delete_unused_variables old members of a Group stay; C57_counterexample and C57_counterexample_unused show both. Overwrites in Spec/Overwrite lists the pairs of values for which it is proved, for every history."
 },
 "C58": {
  "note": "Proved for every history of File calls (including failing ones and reopening with other options) from any file whose references are valid; for a new file without provisos (C58_new_file). The random 64 bit names drawn within one call of writes must not repeat (F21, C58_counterexample_draws), the object 'a' of a foreign references Group must be the canonical empty (F45, C58_counterexample_a), deleting the references Group is not covered (F32, C58_counterexample_delete), nor writing to the root Group itself. C58_reads_same removes the proviso of C35."
 },
 "C59": {
  "note": "Proved for every history of File calls from any file whose objects are as MATLAB expects (in particular a new one), for savemat and for the function writes. Provisos, each with a counterexample: incompatible data are not ignored (C59_ignore), field names of structured arrays without elements can be encoded (F46, C59_counterexample). That something overwritten has the class of the new value is not claimed: F3 (C59_counterexample_overwritten); C59_class is about unused places. A Counter is documented to be of class 'struct' but is given none (F47)."
 },
 "C60": {
  "note": "Each entry reads back (C60_entries) whatever else is in the root Group; the whole dict reads back (C60_root_partial) if the root Group has no attributes yet and the references Group is directly in it. A key with the references Group's name is lost on reading (F50, C60_counterexample_key); writing a dict to the root Group with delete_unused_variables while the File uses the references Group makes references dangle (F51, C60_counterexample_dangling). Structured arrays at the root Group and writing over entries of the same names are not covered."
 },
 "C61": {
  "note": "For the object written itself; options reachable by construction and assignments. The documentation is corrected where the code differs (F47, F52)."
 },
 "C62": {
  "note": "The values of numeric, bool and complex data, of text (see C63) and of object references are part of the layout; the elements of compound Datasets are not (see C54). Structured arrays: distinct field names. File in use: its references were valid at the start (as in C58)."
 },
 "C63": {
  "note": "Complete for Python str not ending in NUL and for everything stored as bytes. For arrays of str (and str ending in NUL) some element has to fill the width of the dtype, otherwise the code does something else than documented (F53, two counterexamples)."
 },
 "C64": {
  "note": "items and values only if no name sorts before the references Group's (F7, C64_counterexample). popitem and clear for a references Group directly below the root (otherwise iteration yields the Group it is in, which cannot be read, F9), with entries that can be read; a KeyError while reading is taken for absence (F54, C64_counterexample_keyError). __eq__ and set operations of the views are not modelled."
 },
 "C65": {
  "note": "Missing: dtypes of the scalar type np.record (those of recarrays), for which it is false (F55, C65_counterexample). Not modelled: align=True, titles of fields with gaps, metadata. numpy's str(dtype) and np.dtype constructor and ast.literal_eval are modelled (Model/DtypeStr)."
 },
 "C66": {
  "note": "Values: MatGood (Counters, float16, field names that are not ASCII in structured arrays without elements, and without structs_as_dicts dicts without fields or with the empty name are left out; numpy refuses structured arrays like the last two). With structs_as_dicts the columns of structured arrays with several elements keep the reversed dimensions of the file (F56): that is part of the statement. Written to an unused place of a file whose references were valid at the start (as in C58)."
 },
 "C67": {
  "note": "C67_posix_partial: missing are the current directory ('.', no names and no root), for which process_path raises TypeError, and paths that begin with exactly two slashes: C67_two_slashes gives them when there are names and no '..'; otherwise the claim is false (C67_counterexample, F57). PureWindowsPath with a drive but no root ('C:a') keeps the drive as a name and is left out of C67_windows."
 },
 "C68": {
  "note": "Objects with identity (Model/Shared); what a File does with its content is not part of this model, only with which options and collection."
 },
 "C69": {
  "note": "C69_in_turn needs no condition on the values or places. C69_partway: places unused before and apart from each other (what overwriting does is C57), random names of one call distinct as in C58; values before the failing one that cannot be stored without loss are not claimed to read back."
 },
 "C70": {
  "note": "False of the code for other byte orders in convert_numpy_str_to_uint32 and convert_to_str (F58) and for arrays of bytes whose last axis is not contiguous (F59); convert_numpy_str_to_uint16 and convert_to_numpy_str are right for all layouts, byte orders and machines. numpy 1.23 or later is assumed for view. What h5py does with strides and byte orders of the arrays handed to it is not modelled."
 },
 "C71": {
  "note": "The marshaller is arbitrary code between the object and the value handed to the parent; objects are written by themselves, not inside other values; parents: the numpy, list and dict marshallers. Record arrays: C71_recarray (F60)."
 },
 "C72": {
  "note": "Reading without the marshaller: C72_without for the parents numpy and list, C72_without_dict for all dicts (a dict of the items, or a structured array with the keys as fields; with keys that are no texts the tuples of the keys and of the values)."
 },
 "C73": {
  "note": "with statements as blocks that call methods depending on the results so far (Model/Session). C73_with: exactly the calls of the block, the File closed, the exception passed on, only this file changed, and to what the calls made of it; C73_readonly: nothing changed; C73_functions_write, C73_functions_read, C73_functions_mat: the functions of the module are such statements; C73_persists: a value written somewhere in a block (which may end by an exception) is read back by read() and by f.read() after any number of later with statements on any files that neither truncate this one nor touch its place. Blocks that do not end, and the same file opened twice at the same time, are not modelled."
 },
 "C74": {
  "note": "C74_again: a value of C66 is written without Python metadata, read (w), and w written with Python metadata (RtOpts, structured arrays as structs, recognised complex names: implied by matlab_compatible) at an unused place of any file; reading gives w exactly, with any options with the same structs_as_dicts that ReadsBack allows. Excepted (a hypothesis): w with a structured array without elements in it (F43)."
 },
 "C75": {
  "note": "C75_variables: writes/update of Writable and Good values at unused names never raise (recursion limit large enough) and all read back. C75_copy_partial: f.update(g) that raised nothing; C75_copy_succeeds_partial: it raises nothing; both without files g with a name sorting before that of the references Group (F7: C75_counterexample). C75_others: the rest of f is untouched, also if copying raises."
 },
 "C76": {
  "note": "C76_write_limit, C76_write_more, C76_read_limit, C76_round_trip: full. C76_too_deep_partial: nested sequences that are too deep raise; for dicts, records and structs what is too deep is silently left out (F61: C76_counterexample)."
 },
 "C78": {
  "note": "For all values and depths of PlainGood: those with fields whose values are all Datasets of references only if none is longer than the last one (C78_lists_longer is what happens to a dict of lists otherwise), and structured arrays only if they are stored as Groups, have no elements and only the shape is stored, or have fields as in C54 (GoodTable; then C78_structured: exactly what was written, if there are no conversions). C78_lists_together and C78_lists_longer are finding F62."
 },
 "C79": {
  "note": "For every set of names that can be keys and every history. Sets with other spellings of paths or the references Group's name are refuted (F63, C79_counterexample); files with a name sorting before the references Group's too (F7). Other elements than str, the views of items() and values() and File.__eq__ are not modelled."
 },
 "C80": {
  "note": "str, numpy str and arrays of str: full (C80_single, C80_array). Unsigned integers of 16 or 32 bits: ASCII texts only (C80_uints_partial); other texts are cut to as many bytes as they have code units (F64: C80_counterexample)."
 }
}