{
 "claims": [
  {
   "property": "C01",
   "status": "proved",
   "theorems": [
    "HS.C01_unescape_escape"
   ],
   "note": ""
  },
  {
   "property": "C02",
   "status": "proved",
   "theorems": [
    "HS.C02_escaped_cannot_navigate"
   ],
   "note": ""
  },
  {
   "property": "C03",
   "status": "proved",
   "theorems": [
    "HS.C03_escape_injective"
   ],
   "note": ""
  },
  {
   "property": "C04",
   "status": "partial",
   "theorems": [
    "HS.C04_unescape_grammar_partial",
    "HS.C04_unescape_errors",
    "HS.C04_only_valueError",
    "HS.C04_hexadecimal",
    "HS.C04_counterexample"
   ],
   "note": "Full grammar is false of the code for hex escapes of a backslash (C04_counterexample, F1); exact on all other strings, errors exact on all strings."
  },
  {
   "property": "C05",
   "status": "proved",
   "theorems": [
    "HS.C05_separated_path",
    "HS.C05_separated_nonempty",
    "HS.C05_separated_injective",
    "HS.C05_bad_parts"
   ],
   "note": ""
  },
  {
   "property": "C06",
   "status": "partial",
   "theorems": [
    "HS.C06_process_path_str",
    "HS.C06_denotes",
    "HS.C06_spelling_variants",
    "HS.C06_stable_partial",
    "HS.C06_counterexample"
   ],
   "note": "Stability fails exactly for the relative path '..' (C06_counterexample)."
  },
  {
   "property": "C07",
   "status": "partial",
   "theorems": [
    "HS.C07_inside_rejected",
    "HS.C07_inside_rejected_str",
    "HS.C07_exact_partial",
    "HS.C07_counterexample"
   ],
   "note": "Safety direction proved in full; 'no other path' holds for one-level reference Groups and is false for nested ones (C07_counterexample, F9)."
  },
  {
   "property": "C08",
   "status": "proved",
   "theorems": [
    "HS.C08_matlab_table",
    "HS.C08_set_true",
    "HS.C08_leaving_table"
   ],
   "note": ""
  },
  {
   "property": "C09",
   "status": "proved",
   "theorems": [
    "HS.C09_always_valid",
    "HS.C09_assignment",
    "HS.C09_frame",
    "HS.C09_raises",
    "HS.C09_constructor"
   ],
   "note": ""
  },
  {
   "property": "C10",
   "status": "partial",
   "theorems": [
    "HS.C10_group_for_references_partial",
    "HS.C10_counterexample"
   ],
   "note": "'//' (a spelling of the root) is accepted by the setter (C10_counterexample, F10)."
  },
  {
   "property": "C11",
   "status": "proved",
   "theorems": [
    "HS.C11_priority_lookup",
    "HS.C11_counterexample_foreign_exception"
   ],
   "note": "If an import raises something other than ImportError during a non-lazy update the tables become stale (C11_counterexample_foreign_exception, F20)."
  },
  {
   "property": "C12",
   "status": "proved",
   "theorems": [
    "HS.C12_user_marshallers",
    "HS.C12_builtin_untouched"
   ],
   "note": ""
  },
  {
   "property": "C13",
   "status": "proved",
   "theorems": [
    "HS.C13_true_is_truthful",
    "HS.C13_false_is_justified"
   ],
   "note": ""
  },
  {
   "property": "C14",
   "status": "partial",
   "theorems": [
    "HS.C14_failed_add_partial",
    "HS.C14_counterexample"
   ],
   "note": "New marshallers before the offending object stay in the user list (C14_counterexample, F11); everything else proved unchanged."
  },
  {
   "property": "C15",
   "status": "proved",
   "theorems": [
    "HS.C15_priority_validated"
   ],
   "note": ""
  },
  {
   "property": "C16",
   "status": "partial",
   "theorems": [
    "HS.C16_set_attributes_partial",
    "HS.C16_fresh",
    "HS.C16_total",
    "HS.C16_counterexample"
   ],
   "note": "Values are exact on fresh objects (C16_fresh) and whenever dtype and shape of an existing attribute agree; an existing attribute of another dtype or shape is left stale (C16_counterexample, F3)."
  },
  {
   "property": "C17",
   "status": "proved",
   "theorems": [
    "HS.C17_unused",
    "HS.C17_first",
    "HS.C17_counterexample"
   ],
   "note": "All histories of asking for names, writing under returned names and writing object arrays on any reachable file. Names returned and used never repeat; if this File made the references Group no name repeats at all. Without that a pending random name may repeat: C17_counterexample (finding F21). The first call before the Group is known is C17_first."
  },
  {
   "property": "C18",
   "status": "proved",
   "theorems": [
    "HS.C18_refs",
    "HS.C18_read"
   ],
   "note": "C18_refs: any values, any state, any options. The object for discarded elements is shown to be the canonical empty if this File has not dealt with it before. C18_read: elements that survive a round trip (the Good values of C29); random names, if drawn, distinct."
  },
  {
   "property": "C19",
   "status": "partial",
   "theorems": [
    "HS.C19_uint32_partial",
    "HS.C19_uint16_partial",
    "HS.C19_single_partial",
    "HS.C19_counterexample"
   ],
   "note": "False for strings whose last code point is a multiple of 256 (C19_counterexample, F5); proved for all arrays of all others."
  },
  {
   "property": "C20",
   "status": "partial",
   "theorems": [
    "HS.C20_utf8",
    "HS.C20_utf8_total",
    "HS.C20_utf8_only",
    "HS.C20_utf16_utf32_partial",
    "HS.C20_byte_order",
    "HS.C20_counterexample"
   ],
   "note": "UTF-8 direction proved in full; the UTF-16/32 direction is false for strings starting with a byte order mark (C20_counterexample, F6)."
  },
  {
   "property": "C21",
   "status": "partial",
   "theorems": [
    "HS.C21_roundtrip_partial",
    "HS.C21_unchanged",
    "HS.C21_matlab_names",
    "HS.C21_counterexample"
   ],
   "note": "Proved for every name pair the decoder knows; other names the option accepts are not decoded (C21_counterexample, F12)."
  },
  {
   "property": "C22",
   "status": "proved",
   "theorems": [
    "HS.C22_zero_shape",
    "HS.C22_terminates"
   ],
   "note": ""
  },
  {
   "property": "C23",
   "status": "partial",
   "theorems": [
    "HS.C23_numeric_partial",
    "HS.C23_counterexample"
   ],
   "note": "Every option setting with Python metadata, any reachable file state, any unused path. Complex data need complex_names that reading recognises (C23_counterexample, F12); float16 is not written when incompatible types are discarded."
  },
  {
   "property": "C24",
   "status": "partial",
   "theorems": [
    "HS.C24_row_partial",
    "HS.C24_counterexample"
   ],
   "note": "With oned_as='column' the code stores a row all the same (F2, C24_counterexample); proved: what is stored for both settings."
  },
  {
   "property": "C25",
   "status": "proved",
   "theorems": [
    "HS.C25_empty",
    "HS.C25_stored"
   ],
   "note": "Also for bytes and str dtypes (not the degenerate width 0). C25_stored: what the Dataset holds."
  },
  {
   "property": "C26",
   "status": "proved",
   "theorems": [
    "HS.C26_filters",
    "HS.C26_scalar"
   ],
   "note": "For all histories of method calls and all Datasets in the file, including nested ones and those in the references Group."
  },
  {
   "property": "C27",
   "status": "proved",
   "theorems": [
    "HS.C27_dataset",
    "HS.C27_counterexample",
    "HS.C27_counterexample_lzf"
   ],
   "note": "Data, dtype, shape and filters of numeric data proved for any previous content; F3 (stale attributes on in-place overwriting) and F27 (lzf/szip) are counterexamples to reading back / succeeding."
  },
  {
   "property": "C28",
   "status": "partial",
   "theorems": [
    "HS.C28_error_partial",
    "HS.C28_discard_partial",
    "HS.C28_ignore",
    "HS.C28_counterexample"
   ],
   "note": "error/discard change nothing provided the containing Group exists; otherwise it is made first (F34, C28_counterexample)."
  },
  {
   "property": "C29",
   "status": "proved",
   "theorems": [
    "HS.C29_int"
   ],
   "note": "CPython's 4300 digit limit of int() is not modelled (F24)."
  },
  {
   "property": "C30",
   "status": "partial",
   "theorems": [
    "HS.C30_strings_partial",
    "HS.C30_counterexample"
   ],
   "note": "False for str ending in U+xx00 or with a leading U+FEFF and for bytes with trailing NULs (C30_counterexample, F5, F6, F25); proved for all others."
  },
  {
   "property": "C31",
   "status": "partial",
   "theorems": [
    "HS.C31_dict_partial",
    "HS.C31_counterexample"
   ],
   "note": "False if two keys are equal as texts (C31_counterexample, F4) and for odd keys/values names (F14, F28); proved for all other dicts."
  },
  {
   "property": "C32",
   "status": "proved",
   "theorems": [
    "HS.C32_any_depth",
    "HS.C32_sequences"
   ],
   "note": "deque's maxlen is not part of the value (F17)."
  },
  {
   "property": "C33",
   "status": "proved",
   "theorems": [
    "HS.C33_records",
    "HS.C33_counter"
   ],
   "note": "The fold of time and datetime is not stored by the code and is not part of the value (F29)."
  },
  {
   "property": "C34",
   "status": "proved",
   "theorems": [
    "HS.C34_singletons"
   ],
   "note": ""
  },
  {
   "property": "C35",
   "status": "proved",
   "theorems": [
    "HS.C35_local",
    "HS.C35_no_references",
    "HS.C35_written_stays",
    "HS.C35_several",
    "HS.C35_counterexample"
   ],
   "note": "Any sequence of File calls, successful or not, that writes or deletes nothing at, above or below a place leaves what is read there exactly as it was (value or exception), for every reachable state. Condition: what is stored there refers (by HDF5 object references) to nothing outside but the references Group, as in files of this package and of MATLAB; C35_counterexample shows the condition is needed, C35_no_references gives it for data without references, and C35_written_stays / C35_several do without it for values this package wrote; C58_self_contained / C58_reads_same give it for every place of a file used through this package. Writes to the root Group itself and deletions on the way to the references Group are excluded (F30-F32)."
  },
  {
   "property": "C36",
   "status": "proved",
   "theorems": [
    "HS.C36_writes_check_first",
    "HS.C36_reads_check_first"
   ],
   "note": "Paths inside the references Group or malformed; paths outside it that share its first name are rejected as well (F9)."
  },
  {
   "property": "C37",
   "status": "proved",
   "theorems": [
    "HS.C37_reads_is_read",
    "HS.C37_raises_iff",
    "HS.C37_first_error"
   ],
   "note": "What reads raises is what the first failing read raises, provided all paths are acceptable; unacceptable paths raise first (C36)."
  },
  {
   "property": "C38",
   "status": "partial",
   "theorems": [
    "HS.C38_len",
    "HS.C38_len_iter_nested",
    "HS.C38_iter_partial",
    "HS.C38_counterexample",
    "HS.C38_contains",
    "HS.C38_iter_members",
    "HS.C38_setitem_getitem",
    "HS.C38_delitem"
   ],
   "note": "Iteration is false for files with a name sorting before the references Group's (C38_counterexample, F7); the rest of the property is proved in full."
  },
  {
   "property": "C39",
   "status": "proved",
   "theorems": [
    "HS.C39_closed"
   ],
   "note": ""
  },
  {
   "property": "C40",
   "status": "partial",
   "theorems": [
    "HS.C40_readonly_partial",
    "HS.C40_counterexample"
   ],
   "note": "The flag checked is always True (F8), so OSError is not what is raised (C40_counterexample); that nothing changes is proved, given that HDF5 refuses to change a file opened read-only."
  },
  {
   "property": "C41",
   "status": "partial",
   "theorems": [
    "HS.C41_linearizable_partial",
    "HS.C41_counterexample",
    "HS.C41_reading",
    "HS.C41_thread_order",
    "HS.C41_no_deadlock"
   ],
   "note": "Every interleaving of the steps of every call except list(f): __iter__ returns an h5py iterator consumed without the lock (F35), and C41_counterexample is a run in which list(f) sees half of a writes() call, which no order of the calls gives; if no thread writes, deletes or closes, list(f) is atomic too (C41_reading). Also: calls of one thread are ordered, and no call blocks forever (list(f) included)."
  },
  {
   "property": "C42",
   "status": "proved",
   "theorems": [
    "HS.C42_content",
    "HS.C42_functions",
    "HS.C42_keeps",
    "HS.C42_readonly",
    "HS.C42_not_hdf5",
    "HS.C42_new",
    "HS.C42_recovers"
   ],
   "note": "HDF5 itself is modelled as far as where the superblock is looked for; crash points are all prefixes of the header write and the empty file before a new one. C42_content: what a File holds after opening, or OSError and the same bytes, for all arguments; C42_functions: the model of writes/reads/savemat/loadmat on whole files (openDisk) is refined by the one on bytes."
  },
  {
   "property": "C43",
   "status": "proved",
   "theorems": [
    "HS.C43_header",
    "HS.C43_file"
   ],
   "note": "For years 1000 to 9999 and any version text of up to 16 characters (header_spec)."
  },
  {
   "property": "C44",
   "status": "proved",
   "theorems": [
    "HS.C44_name_unique",
    "HS.C44_savemat",
    "HS.C44_loadmat",
    "HS.C44_counterexample"
   ],
   "note": "bytes names, which both functions provide for, raise TypeError in File (C44_counterexample, F38); for str names proved in full. Files are named entries of a disk; SciPy's functions are not modelled beyond the arguments they are called with."
  },
  {
   "property": "C45",
   "status": "partial",
   "theorems": [
    "HS.C45_selected",
    "HS.C45_all_partial",
    "HS.C45_counterexample",
    "HS.C45_not_hdf5",
    "HS.C45_savemat_loadmat"
   ],
   "note": "variable_names: proved for every HDF5 file. All variables: proved for files whose names all sort after the references Group's (C45_counterexample, F7). C45_savemat_loadmat: what savemat wrote to a new or truncated file is what loadmat returns, end to end."
  },
  {
   "property": "C46",
   "status": "proved",
   "theorems": [
    "HS.C46_read",
    "HS.C46_not_matlab",
    "HS.C46_both",
    "HS.C46_write_read"
   ],
   "note": "C46_write_read: the write and read functions end to end on a disk, with their different default options."
  },
  {
   "property": "C47",
   "status": "proved",
   "theorems": [
    "HS.C47_entries",
    "HS.C47_exactly",
    "HS.C47_keys_values",
    "HS.C47_kept",
    "HS.C47_discarded"
   ],
   "note": ""
  },
  {
   "property": "C48",
   "status": "proved",
   "theorems": [
    "HS.C48_tables_inverse",
    "HS.C48_builtin_inverse",
    "HS.C48_builtin_unique",
    "HS.C48_builtin_strings",
    "HS.C48_values",
    "HS.C48_collection"
   ],
   "note": "For any marshaller whose tables have the same length and no duplicates, and for the tables of the 14 builtin classes; C48_collection ties it to the lookups of any collection whose other marshallers do not claim the type or the type string."
  },
  {
   "property": "C49",
   "status": "proved",
   "theorems": [
    "HS.C49_dispatch",
    "HS.C49_approximate",
    "HS.C49_builtin_read",
    "HS.C49_matlab_classes",
    "HS.C49_int_long"
   ],
   "note": "Any collection after any history; C49_builtin_read: the model of reading used for the round trips is what the chosen builtin marshaller does."
  },
  {
   "property": "C50",
   "status": "proved",
   "theorems": [
    "HS.C50_reversed",
    "HS.C50_complex",
    "HS.C50_logical",
    "HS.C50_char",
    "HS.C50_cell",
    "HS.C50_empty",
    "HS.C50_unknown"
   ],
   "note": "Datasets of numbers, complex, logical, char, cell, struct, MATLAB_empty and unknown classes; Groups and Datasets with MATLAB_fields (structs) are read by the same code and not part of this statement."
  },
  {
   "property": "C51",
   "status": "proved",
   "theorems": [
    "HS.C51_plugins"
   ],
   "note": ""
  },
  {
   "property": "C52",
   "status": "partial",
   "theorems": [
    "HS.C52_only_these_options",
    "HS.C52_matlab_any_options_partial",
    "HS.C52_same_order_partial",
    "HS.C52_counterexample"
   ],
   "note": "Which options matter is exact for every file. Data written with matlab_compatible=False needs the same order of dimensions to be read, and so do >= 2-dimensional float16 arrays written with action 'ignore' (C52_counterexample, F36, F37)."
  },
  {
   "property": "C53",
   "status": "proved",
   "theorems": [
    "HS.C53_write_dispatch",
    "HS.C53_class_name",
    "HS.C53_one_builtin"
   ],
   "note": "Modules missing means: the lookup reported them as missing (C13 says when)."
  },
  {
   "property": "C54",
   "status": "partial",
   "theorems": [
    "HS.C54_structured_partial",
    "HS.C54_counterexample_strings",
    "HS.C54_counterexample_object",
    "HS.C54_counterexample_empty",
    "HS.C54_counterexample_discard",
    "HS.C54_compound_partial",
    "HS.C54_group_or_dataset",
    "HS.C54_counterexample_complex",
    "HS.C54_counterexample_str"
   ],
   "note": "Proved for structured data with at least one element, nested to any depth: stored as a Group (always so with the default options, or if HDF5 has no type for it, C54_structured_partial) or as one compound Dataset (C54_compound_partial); C54_group_or_dataset says which of the two; read with every options that keep the order of dimensions or when the file tells it. Missing and refuted: empty ones (F43), in Groups strings shorter than their field (F41), object fields of uniform numpy data (F42), discarded fields (F44); in compounds fields 'r' and 'i' (F48) and str (F49)."
  },
  {
   "property": "C55",
   "status": "proved",
   "theorems": [
    "HS.C55_as_dict",
    "HS.C55_one",
    "HS.C55_several",
    "HS.C55_empty"
   ],
   "note": "For every file (view) whatsoever; fields of a struct array are assumed to have the same shape, values to be well-formed (Sized)."
  },
  {
   "property": "C56",
   "status": "proved",
   "theorems": [
    "HS.C56_write_succeeds",
    "HS.C56_own_refs",
    "HS.C56_round_trip",
    "HS.C56_foreign_refs",
    "HS.C56_counterexample"
   ],
   "note": "Conditions are collected in Writable and CanWrite (Spec/Progress); the exceptions they exclude are findings F15, F23, F27. With a references Group made by somebody else names are drawn at random: C56_write_succeeds and C56_foreign_refs say when that can go on for ever."
  },
  {
   "property": "C57",
   "status": "partial",
   "theorems": [
    "HS.C57_overwritten_partial",
    "HS.C57_twice_partial",
    "HS.C57_counterexample",
    "HS.C57_counterexample_unused"
   ],
   "note": "Partial because the claim is false as it stands (finding F3): set_attributes_all keeps an old attribute whose dtype or shape differs from the new one (utilities.py:1431-1439), and without delete_unused_variables old members of a Group stay; C57_counterexample and C57_counterexample_unused show both. Overwrites in Spec/Overwrite lists the pairs of values for which it is proved, for every history."
  },
  {
   "property": "C58",
   "status": "proved",
   "theorems": [
    "HS.C58_later",
    "HS.C58_later_exists",
    "HS.C58_valid",
    "HS.C58_new_file",
    "HS.C58_self_contained",
    "HS.C58_reads_same",
    "HS.C58_counterexample_delete",
    "HS.C58_counterexample_draws",
    "HS.C58_counterexample_a"
   ],
   "note": "Proved for every history of File calls (including failing ones and reopening with other options) from any file whose references are valid; for a new file without provisos (C58_new_file). The random 64 bit names drawn within one call of writes must not repeat (F21, C58_counterexample_draws), the object 'a' of a foreign references Group must be the canonical empty (F45, C58_counterexample_a), deleting the references Group is not covered (F32, C58_counterexample_delete), nor writing to the root Group itself. C58_reads_same removes the proviso of C35."
  },
  {
   "property": "C59",
   "status": "proved",
   "theorems": [
    "HS.C59_matlab",
    "HS.C59_new_file",
    "HS.C59_savemat",
    "HS.C59_writes",
    "HS.C59_class",
    "HS.C59_ignore",
    "HS.C59_counterexample",
    "HS.C59_counterexample_overwritten"
   ],
   "note": "Proved for every history of File calls from any file whose objects are as MATLAB expects (in particular a new one), for savemat and for the function writes. Provisos, each with a counterexample: incompatible data are not ignored (C59_ignore), field names of structured arrays without elements can be encoded (F46, C59_counterexample). That something overwritten has the class of the new value is not claimed: F3 (C59_counterexample_overwritten); C59_class is about unused places. A Counter is documented to be of class 'struct' but is given none (F47)."
  },
  {
   "property": "C60",
   "status": "partial",
   "theorems": [
    "HS.C60_root_partial",
    "HS.C60_entries",
    "HS.C60_rejected",
    "HS.C60_counterexample_key",
    "HS.C60_counterexample_dangling"
   ],
   "note": "Each entry reads back (C60_entries) whatever else is in the root Group; the whole dict reads back (C60_root_partial) if the root Group has no attributes yet and the references Group is directly in it. A key with the references Group's name is lost on reading (F50, C60_counterexample_key); writing a dict to the root Group with delete_unused_variables while the File uses the references Group makes references dangle (F51, C60_counterexample_dangling). Structured arrays at the root Group and writing over entries of the same names are not covered."
  },
  {
   "property": "C61",
   "status": "proved",
   "theorems": [
    "HS.C61_attributes"
   ],
   "note": "For the object written itself; options reachable by construction and assignments. The documentation is corrected where the code differs (F47, F52)."
  },
  {
   "property": "C62",
   "status": "proved",
   "theorems": [
    "HS.C62_kept",
    "HS.C62_layout"
   ],
   "note": "The values of numeric, bool and complex data, of text (see C63) and of object references are part of the layout; the elements of compound Datasets are not (see C54). Structured arrays: distinct field names. File in use: its references were valid at the start (as in C58)."
  },
  {
   "property": "C63",
   "status": "partial",
   "theorems": [
    "HS.C63_text_partial",
    "HS.C63_str",
    "HS.C63_bytes",
    "HS.C63_all",
    "HS.C63_counterexample_doublets",
    "HS.C63_counterexample_short"
   ],
   "note": "Complete for Python str not ending in NUL and for everything stored as bytes. For arrays of str (and str ending in NUL) some element has to fill the width of the dtype, otherwise the code does something else than documented (F53, two counterexamples)."
  },
  {
   "property": "C64",
   "status": "partial",
   "theorems": [
    "HS.C64_absent",
    "HS.C64_present",
    "HS.C64_setdefault",
    "HS.C64_other_exceptions",
    "HS.C64_update",
    "HS.C64_update_stops",
    "HS.C64_popitem",
    "HS.C64_clear",
    "HS.C64_items_partial",
    "HS.C64_counterexample",
    "HS.C64_counterexample_keyError"
   ],
   "note": "items and values only if no name sorts before the references Group's (F7, C64_counterexample). popitem and clear for a references Group directly below the root (otherwise iteration yields the Group it is in, which cannot be read, F9), with entries that can be read; a KeyError while reading is taken for absence (F54, C64_counterexample_keyError). __eq__ and set operations of the views are not modelled."
  },
  {
   "property": "C65",
   "status": "partial",
   "theorems": [
    "HS.C65_recreated_partial",
    "HS.C65_file_partial",
    "HS.C65_injective",
    "HS.C65_numbers",
    "HS.C65_others",
    "HS.C65_names",
    "HS.C65_counterexample"
   ],
   "note": "Missing: dtypes of the scalar type np.record (those of recarrays), for which it is false (F55, C65_counterexample). Not modelled: align=True, titles of fields with gaps, metadata. numpy's str(dtype) and np.dtype constructor and ast.literal_eval are modelled (Model/DtypeStr)."
  },
  {
   "property": "C66",
   "status": "proved",
   "theorems": [
    "HS.C66_later",
    "HS.C66_matlab_form",
    "HS.C66_str"
   ],
   "note": "Values: MatGood (Counters, float16, field names that are not ASCII in structured arrays without elements, and without structs_as_dicts dicts without fields or with the empty name are left out; numpy refuses structured arrays like the last two). With structs_as_dicts the columns of structured arrays with several elements keep the reversed dimensions of the file (F56): that is part of the statement. Written to an unused place of a file whose references were valid at the start (as in C58)."
  },
  {
   "property": "C67",
   "status": "partial",
   "theorems": [
    "HS.C67_bytes",
    "HS.C67_posix_partial",
    "HS.C67_two_slashes",
    "HS.C67_windows",
    "HS.C67_methods",
    "HS.C67_counterexample"
   ],
   "note": "C67_posix_partial: missing are the current directory ('.', no names and no root), for which process_path raises TypeError, and paths that begin with exactly two slashes: C67_two_slashes gives them when there are names and no '..'; otherwise the claim is false (C67_counterexample, F57). PureWindowsPath with a drive but no root ('C:a') keeps the drive as a name and is left out of C67_windows."
  },
  {
   "property": "C68",
   "status": "proved",
   "theorems": [
    "HS.C68_file_options",
    "HS.C68_keywords",
    "HS.C68_both",
    "HS.C68_independent",
    "HS.C68_new",
    "HS.C68_new_default",
    "HS.C68_default",
    "HS.C68_shared",
    "HS.C68_valid"
   ],
   "note": "Objects with identity (Model/Shared); what a File does with its content is not part of this model, only with which options and collection."
  },
  {
   "property": "C69",
   "status": "proved",
   "theorems": [
    "HS.C69_partway",
    "HS.C69_in_turn"
   ],
   "note": "C69_in_turn needs no condition on the values or places. C69_partway: places unused before and apart from each other (what overwriting does is C57), random names of one call distinct as in C58; values before the failing one that cannot be stored without loss are not claimed to read back."
  },
  {
   "property": "C70",
   "status": "partial",
   "theorems": [
    "HS.C70_str_to_uint16",
    "HS.C70_str_to_uint16_same",
    "HS.C70_str_to_uint32_partial",
    "HS.C70_str_to_uint32_counterexample",
    "HS.C70_str_stored_partial",
    "HS.C70_bytes_stored_partial",
    "HS.C70_bytes_stored_raises",
    "HS.C70_bytes_stored_counterexample",
    "HS.C70_to_numpy_str",
    "HS.C70_to_str_partial",
    "HS.C70_to_str_counterexample",
    "HS.C70_to_numpy_bytes_partial",
    "HS.C70_to_numpy_bytes_counterexample"
   ],
   "note": "False of the code for other byte orders in convert_numpy_str_to_uint32 and convert_to_str (F58) and for arrays of bytes whose last axis is not contiguous (F59); convert_numpy_str_to_uint16 and convert_to_numpy_str are right for all layouts, byte orders and machines. numpy 1.23 or later is assumed for view. What h5py does with strides and byte orders of the arrays handed to it is not modelled."
  },
  {
   "property": "C71",
   "status": "proved",
   "theorems": [
    "HS.C71_round_trip",
    "HS.C71_same",
    "HS.C71_others",
    "HS.C71_recarray"
   ],
   "note": "The marshaller is arbitrary code between the object and the value handed to the parent; objects are written by themselves, not inside other values; parents: the numpy, list and dict marshallers. Record arrays: C71_recarray (F60)."
  },
  {
   "property": "C72",
   "status": "proved",
   "theorems": [
    "HS.C72_without",
    "HS.C72_without_dict",
    "HS.C72_approximate"
   ],
   "note": "Reading without the marshaller: C72_without for the parents numpy and list, C72_without_dict for all dicts (a dict of the items, or a structured array with the keys as fields; with keys that are no texts the tuples of the keys and of the values)."
  },
  {
   "property": "C73",
   "status": "proved",
   "theorems": [
    "HS.C73_with",
    "HS.C73_readonly",
    "HS.C73_functions_write",
    "HS.C73_functions_read",
    "HS.C73_functions_mat",
    "HS.C73_persists"
   ],
   "note": "with statements as blocks that call methods depending on the results so far (Model/Session). C73_with: exactly the calls of the block, the File closed, the exception passed on, only this file changed, and to what the calls made of it; C73_readonly: nothing changed; C73_functions_write, C73_functions_read, C73_functions_mat: the functions of the module are such statements; C73_persists: a value written somewhere in a block (which may end by an exception) is read back by read() and by f.read() after any number of later with statements on any files that neither truncate this one nor touch its place. Blocks that do not end, and the same file opened twice at the same time, are not modelled."
  },
  {
   "property": "C74",
   "status": "proved",
   "theorems": [
    "HS.C74_again"
   ],
   "note": "C74_again: a value of C66 is written without Python metadata, read (w), and w written with Python metadata (RtOpts, structured arrays as structs, recognised complex names: implied by matlab_compatible) at an unused place of any file; reading gives w exactly, with any options with the same structs_as_dicts that ReadsBack allows. Excepted (a hypothesis): w with a structured array without elements in it (F43)."
  },
  {
   "property": "C75",
   "status": "partial",
   "theorems": [
    "HS.C75_variables",
    "HS.C75_copy_partial",
    "HS.C75_copy_succeeds_partial",
    "HS.C75_others",
    "HS.C75_counterexample"
   ],
   "note": "C75_variables: writes/update of Writable and Good values at unused names never raise (recursion limit large enough) and all read back. C75_copy_partial: f.update(g) that raised nothing; C75_copy_succeeds_partial: it raises nothing; both without files g with a name sorting before that of the references Group (F7: C75_counterexample). C75_others: the rest of f is untouched, also if copying raises."
  },
  {
   "property": "C76",
   "status": "partial",
   "theorems": [
    "HS.C76_write_limit",
    "HS.C76_write_more",
    "HS.C76_read_limit",
    "HS.C76_round_trip",
    "HS.C76_too_deep_partial",
    "HS.C76_counterexample"
   ],
   "note": "C76_write_limit, C76_write_more, C76_read_limit, C76_round_trip: full. C76_too_deep_partial: nested sequences that are too deep raise; for dicts, records and structs what is too deep is silently left out (F61: C76_counterexample)."
  },
  {
   "property": "C77",
   "status": "proved",
   "theorems": [
    "HS.C77_dict",
    "HS.C77_texts",
    "HS.C77_struct",
    "HS.C77_fields",
    "HS.C77_member",
    "HS.C77_alone"
   ],
   "note": ""
  },
  {
   "property": "C78",
   "status": "proved",
   "theorems": [
    "HS.C78_plain",
    "HS.C78_numbers",
    "HS.C78_structured",
    "HS.C78_lists_together",
    "HS.C78_lists_longer"
   ],
   "note": "For all values and depths of PlainGood: those with fields whose values are all Datasets of references only if none is longer than the last one (C78_lists_longer is what happens to a dict of lists otherwise), and structured arrays only if they are stored as Groups, have no elements and only the shape is stored, or have fields as in C54 (GoodTable; then C78_structured: exactly what was written, if there are no conversions). C78_lists_together and C78_lists_longer are finding F62."
  },
  {
   "property": "C79",
   "status": "partial",
   "theorems": [
    "HS.C79_keys_partial",
    "HS.C79_counterexample"
   ],
   "note": "For every set of names that can be keys and every history. Sets with other spellings of paths or the references Group's name are refuted (F63, C79_counterexample); files with a name sorting before the references Group's too (F7). Other elements than str, the views of items() and values() and File.__eq__ are not modelled."
  },
  {
   "property": "C80",
   "status": "partial",
   "theorems": [
    "HS.C80_array",
    "HS.C80_single",
    "HS.C80_uints_partial",
    "HS.C80_counterexample"
   ],
   "note": "str, numpy str and arrays of str: full (C80_single, C80_array). Unsigned integers of 16 or 32 bits: ASCII texts only (C80_uints_partial); other texts are cut to as many bytes as they have code units (F64: C80_counterexample)."
  }
 ]
}