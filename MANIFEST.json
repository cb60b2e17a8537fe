{
 "claims": [
  {
   "property": "C19",
   "status": "partial",
   "theorems": [
    "Verif.Discriminant.enum_discriminant_values",
    "Verif.Discriminant.enum_discriminants_fit_partial",
    "Verif.Discriminant.enum_accept_iff_partial",
    "Verif.Discriminant.enum_neg_zero_panics",
    "Verif.Discriminant.enum_neg_zero_wraps",
    "Verif.Discriminant.enum_neg_zero_refused",
    "Verif.Discriminant.enum_usize_unchecked"
   ],
   "note": "Values proved for every enum. Fit is proved for fixed-width types; usize/isize are unchecked by the code (enum_usize_unchecked). Acceptance proved for enums without a literal -0; the code fails on -0 (enum_neg_zero_*)."
  },
  {
   "property": "C20",
   "status": "partial",
   "theorems": [
    "Verif.Discriminant.inferred_repr_is_first_fit_partial",
    "Verif.Discriminant.inferred_repr_error_iff_partial"
   ],
   "note": "Proved for enums that do not spell a discriminant -0, where the code deviates (enum_neg_zero_*)."
  },
  {
   "property": "C21",
   "status": "partial",
   "theorems": [
    "Verif.Toposort.sort_terminates",
    "Verif.Toposort.structs_in_order_partial",
    "Verif.Toposort.structs_in_order_no_arrays_partial",
    "Verif.Toposort.array_field_out_of_order",
    "Verif.Toposort.array_cycle_accepted"
   ],
   "note": "Full claim proved for structs without array fields. Through array fields the code neither orders nor detects cycles (array_field_out_of_order, array_cycle_accepted)."
  },
  {
   "property": "C22",
   "status": "partial",
   "theorems": [
    "Verif.TypeEq.type_eq_iff",
    "Verif.TypeEq.type_eq_laws_partial",
    "Verif.TypeEq.types_collected_once_partial",
    "Verif.TypeEq.type_eq_not_reflexive",
    "Verif.TypeEq.type_eq_never_of_ptr_array",
    "Verif.TypeEq.ptr_type_collected_twice"
   ],
   "note": "Equality decides syntactic identity on types without raw pointers and arrays; the code has no equality arm for those two, so reflexivity fails there."
  },
  {
   "property": "C23",
   "status": "proved",
   "theorems": [
    "Verif.Ordered.ordered_set_refines",
    "Verif.Ordered.ordered_set_refines_on",
    "Verif.Ordered.ordered_set_elements",
    "Verif.Ordered.ordered_map_refines"
   ],
   "note": "HashSet/HashMap modelled as lists searched with ==."
  },
  {
   "property": "C01",
   "status": "proved",
   "theorems": [
    "Verif.Utf8.string_utf8_gate",
    "Verif.Utf8.string_std_gate",
    "Verif.Utf8.string_cstr_gate",
    "Verif.Utf8.str_utf8_gate",
    "Verif.Utf8.string_utf16_gate",
    "Verif.Utf8.string_lossy_total",
    "Verif.Utf8.string_lossy16_total",
    "Verif.Utf8.from_utf8_iff"
   ],
   "note": "Bytes are naturals; the validator of core::str is modelled and proved to decide well-formedness. Allocation failure is not modelled."
  },
  {
   "property": "C04",
   "status": "proved",
   "theorems": [
    "Verif.Utf8.display_lossy",
    "Verif.Utf8.display_to",
    "Verif.Utf8.pieces_unique"
   ],
   "note": "display_to is for any writer, also one that fails."
  },
  {
   "property": "C05",
   "status": "proved",
   "theorems": [
    "Verif.Utf8.debug_faithful",
    "Verif.Utf8.debug_to",
    "Verif.Utf8.pieces_unique"
   ],
   "note": "Unicode tables used by char::escape_debug are parameters. debug_to is for any writer, also one that fails."
  },
  {
   "property": "C02",
   "status": "proved",
   "theorems": [
    "Verif.RustString.string_histories",
    "Verif.RustString.spec_deterministic",
    "Verif.RustString.string_reserve_capacity"
   ],
   "note": "All members except the mutable begin()/end(), through which C++ can write arbitrary bytes. Buffers are modelled with explicit allocation, growth policy is arbitrary, allocation failure is not modelled."
  },
  {
   "property": "C03",
   "status": "proved",
   "theorems": [
    "Verif.RustString.string_c_str"
   ],
   "note": "For every reachable state."
  },
  {
   "property": "C06",
   "status": "proved",
   "theorems": [
    "Verif.StrCmp.str_operators_agree",
    "Verif.StrCmp.str_order_total",
    "Verif.StrCmp.str_order_signed_differs",
    "Verif.StrCmp.string_operators_agree",
    "Verif.StrCmp.string_bytes_iterated"
   ],
   "note": "Both signednesses of char; on signed char the order is not Rust's (str_order_signed_differs)."
  },
  {
   "property": "C07",
   "status": "partial",
   "theorems": [
    "Verif.Slice.slice_iterator_positions_partial",
    "Verif.Slice.slice_iteration_partial",
    "Verif.Slice.slice_at_and_null",
    "Verif.Slice.slice_elements",
    "Verif.Slice.slice_zero_size"
   ],
   "note": "Iterator laws proved for elements of positive size; for opaque Rust types of size zero iteration visits nothing (slice_zero_size)."
  },
  {
   "property": "C08",
   "status": "proved",
   "theorems": [
    "Verif.RustBox.box_histories"
   ],
   "note": "Heap with explicit allocation and object identity, C++ boxes, raw pointers and Rust boxes. Allocation failure is not modelled."
  },
  {
   "property": "C09",
   "status": "partial",
   "theorems": [
    "Verif.RustVec.vec_histories_partial",
    "Verif.RustVec.vec_push_own_element",
    "Verif.RustVec.vec_copy_assign_throw",
    "Verif.RustVec.vec_reserve_capacity"
   ],
   "note": "All histories except pushing an element of the vector itself (reads freed memory exactly when it reallocates, vec_push_own_element) and copy assignment whose element copy throws (leaves a destroyed object in place, vec_copy_assign_throw)."
  },
  {
   "property": "C10",
   "status": "partial",
   "theorems": [
    "Verif.Exception.error_histories_partial",
    "Verif.Exception.error_moved_from_what_null"
   ],
   "note": "All histories, except that C++ does not throw a moved-from error into Rust. what() of a moved-from error is a null pointer, not an empty string (error_moved_from_what_null)."
  },
  {
   "property": "C11",
   "status": "partial",
   "theorems": [
    "Verif.Exception.error_histories_partial",
    "Verif.Exception.error_round_trip",
    "Verif.Exception.moved_from_error_thrown"
   ],
   "note": "All histories except throwing a moved-from rust::Error through the bridge, which calls strlen on null (moved_from_error_thrown). Default trycatch; exceptions of other types and other trycatch functions are in C89."
  },
  {
   "property": "C12",
   "status": "partial",
   "theorems": [
    "Verif.Unwind.panic_never_reaches_cxx_partial",
    "Verif.Unwind.reserve_overflow_unwinds",
    "Verif.Unwind.user_code_guarded"
   ],
   "note": "All call stacks and panics in user code. The unguarded runtime shims for Vec::reserve and String::reserve can panic on capacity overflow; before Rust 1.81 that unwinds into C++ (reserve_overflow_unwinds)."
  },
  {
   "property": "C13",
   "status": "proved",
   "theorems": [
    "Verif.CxxString.cxx_string_histories",
    "Verif.CxxString.cxx_string_spec_deterministic"
   ],
   "note": "std::string is modelled by the standard's guarantee of a NUL at data()[size()]. Allocation failure is not modelled; lengths beyond max_size() terminate."
  },
  {
   "property": "C14",
   "status": "partial",
   "theorems": [
    "Verif.CxxString.let_cxx_string_partial",
    "Verif.CxxString.let_cxx_string_uninit"
   ],
   "note": "Holds when every initialiser evaluates to a value; otherwise the destructor runs on uninitialised memory (let_cxx_string_uninit)."
  },
  {
   "property": "C16",
   "status": "proved",
   "theorems": [
    "Verif.SharedPtr.shared_ptr_histories"
   ],
   "note": "Control blocks with two counts refine references to objects without counts. std::shared_ptr and std::weak_ptr themselves are modelled from the C++ standard; the aliasing constructor is not modelled."
  },
  {
   "property": "C17",
   "status": "proved",
   "theorems": [
    "Verif.UniquePtr.unique_ptr_histories"
   ],
   "note": "std::unique_ptr is modelled from the C++ standard as one owning pointer."
  },
  {
   "property": "C15",
   "status": "proved",
   "theorems": [
    "Verif.CxxVector.cxx_vector_histories",
    "Verif.CxxVector.cxx_vector_iteration"
   ],
   "note": "std::vector is modelled as a list of objects with move and destroy; relocation on growth is abstracted."
  },
  {
   "property": "C18",
   "status": "proved",
   "theorems": [
    "Verif.Builtins.builtin_imports_defined",
    "Verif.Builtins.builtin_vector_by_value",
    "Verif.Builtins.builtin_vec_exported"
   ],
   "note": "Tables transcribed from check.rs, the Rust crate and cxx.cc; decided over the whole finite domain, for every choice of size_t, ssize_t and char."
  },
  {
   "property": "C34",
   "status": "partial",
   "theorems": [
    "Verif.Check.no_opaque_by_value_partial",
    "Verif.Check.alias_by_value_recorded",
    "Verif.Check.opaque_by_value_in_fn_pointer"
   ],
   "note": "Holds for fields, arguments, return values and array elements. False for the signature of a function pointer, where the code does not check (opaque_by_value_in_fn_pointer)."
  },
  {
   "property": "C35",
   "status": "proved",
   "theorems": [
    "Verif.Check.mutable_cxx_is_pinned",
    "Verif.Check.mutable_alias_recorded"
   ],
   "note": "References at any depth of any written type, and receivers."
  },
  {
   "property": "C36",
   "status": "proved",
   "theorems": [
    "Verif.Check.mut_return_justified"
   ],
   "note": ""
  },
  {
   "property": "C37",
   "status": "partial",
   "theorems": [
    "Verif.Types.duplicates_exact",
    "Verif.Types.duplicates_order_partial",
    "Verif.Types.duplicates_order_dependent"
   ],
   "note": "The accepted sets of definitions are characterised exactly. Order independence fails in two cases (duplicates_order_dependent) and is proved outside them."
  },
  {
   "property": "C51",
   "status": "proved",
   "theorems": [
    "Verif.Check.names_resolve",
    "Verif.Check.impls_exact"
   ],
   "note": ""
  },
  {
   "property": "C24",
   "status": "partial",
   "theorems": [
    "Verif.Mangle.symbol_determines_entity",
    "Verif.Mangle.symbol_exists",
    "Verif.Mangle.functions_distinct_partial",
    "Verif.Mangle.instantiation_members",
    "Verif.Mangle.overloaded_methods_collide",
    "Verif.Mangle.namespaced_methods_collide",
    "Verif.Mangle.std_vector_namespace_collides"
   ],
   "note": "A symbol determines the entity up to what C++ names it by. Distinctness of any two functions fails for methods of one name whose receivers differ only in mutability or only in the namespace of the type; both are accepted by the checker (witnesses)."
  },
  {
   "property": "C52",
   "status": "proved",
   "theorems": [
    "Verif.Mangle.instantiation_symbols_agree",
    "Verif.Mangle.instantiation_members"
   ],
   "note": ""
  },
  {
   "property": "C53",
   "status": "proved",
   "theorems": [
    "Verif.Mangle.guards_distinct"
   ],
   "note": ""
  },
  {
   "property": "C54",
   "status": "partial",
   "theorems": [
    "Verif.Mangle.runtime_disjoint_partial",
    "Verif.Mangle.root_namespace_names",
    "Verif.Mangle.taken_needed",
    "Verif.Mangle.root_namespace_clashes"
   ],
   "note": "Outside the root namespace proved. In the root namespace more names clash than the two documented ones (witness); all that can are listed and nothing else clashes."
  },
  {
   "property": "C38",
   "status": "proved",
   "theorems": [
    "Verif.Improper.improper_exact",
    "Verif.Improper.improper_order_independent"
   ],
   "note": "For every iteration order of the hash set in the fixpoint loop."
  },
  {
   "property": "C55",
   "status": "partial",
   "theorems": [
    "Verif.Pod.pod_exact",
    "Verif.Pod.plain_not_owning",
    "Verif.Pod.pod_terminates_partial",
    "Verif.Pod.array_cycle_diverges"
   ],
   "note": "Exactness proved. Termination fails for a struct that contains itself in an array, which the checker accepts (array_cycle_diverges), and is proved otherwise."
  },
  {
   "property": "C32",
   "status": "partial",
   "theorems": [
    "Verif.Abi.rust_function_abi",
    "Verif.Abi.cxx_function_abi_partial",
    "Verif.Abi.trampoline_abi_partial",
    "Verif.Abi.context_exists",
    "Verif.Abi.nested_fn_pointer_disagrees"
   ],
   "note": "Proved for Rust functions, and for C++ functions when no function pointer has () in its signature. For the trampolines of function pointers proved unless their own parameters are functions, () or C++ vectors by value, where it is false (nested_fn_pointer_disagrees)."
  },
  {
   "property": "C56",
   "status": "partial",
   "theorems": [
    "Verif.Abi.write_total_partial",
    "Verif.Abi.unit_in_fn_pointer_panics"
   ],
   "note": "False for () inside a function pointer, which the checker accepts and on which the generator panics (unit_in_fn_pointer_panics); proved otherwise."
  },
  {
   "property": "C25",
   "status": "partial",
   "theorems": [
    "Verif.Qualified.type_id_injective",
    "Verif.Qualified.alias_verified_partial",
    "Verif.Qualified.type_id_items_exist",
    "Verif.Qualified.raw_alias_panics"
   ],
   "note": "The macro panics for an alias, as for any type with a type id, whose C++ name is a raw identifier (raw_alias_panics, and C114); proved for all other names."
  },
  {
   "property": "C47",
   "status": "partial",
   "theorems": [
    "Verif.Qualified.unquoted_exact",
    "Verif.Qualified.quoted_exact",
    "Verif.Qualified.bridge_args_exact",
    "Verif.Qualified.attr_value_partial",
    "Verif.Qualified.item_namespace_partial",
    "Verif.Qualified.print_roundtrip",
    "Verif.Qualified.raw_namespace_kept"
   ],
   "note": "The attribute on an item keeps the r# of a raw identifier while the attribute on the bridge strips it (raw_namespace_kept); proved for namespaces without raw identifiers."
  },
  {
   "property": "C28",
   "status": "proved",
   "theorems": [
    "Verif.Out.blocks_balance",
    "Verif.Out.braces",
    "Verif.Out.openings_text"
   ],
   "note": "For every properly nested sequence of calls; that the writer functions nest their calls properly is C103."
  },
  {
   "property": "C29",
   "status": "proved",
   "theorems": [
    "Verif.Nested.grouping_exact",
    "Verif.Nested.forward_declarations_exact",
    "Verif.Nested.bridge_declarations_exact"
   ],
   "note": ""
  },
  {
   "property": "C26",
   "status": "proved",
   "theorems": [
    "Verif.Cfg.eval_settled",
    "Verif.Cfg.eval_open",
    "Verif.Cfg.eval_sound",
    "Verif.Cfg.merge_exact",
    "Verif.Cfg.strip_exact",
    "Verif.Cfg.settled_decidable",
    "Verif.Cfg.parse_exact"
   ],
   "note": "Each occurrence of an unknown predicate is independent, so any(x, not(x)) with unknown x is an error."
  },
  {
   "property": "C27",
   "status": "partial",
   "theorems": [
    "Verif.Cfg.flags_accepted",
    "Verif.Cfg.flags_exact",
    "Verif.Cfg.cargo_features",
    "Verif.Cfg.cargo_exact",
    "Verif.Cfg.feature_found_partial",
    "Verif.Cfg.hyphen_feature_missed"
   ],
   "note": "Lookup is proved exact for both front ends. Agreement with Cargo fails for a feature with a hyphen in its name (hyphen_feature_missed): cxx-build looks for CARGO_FEATURE_A-B while Cargo sets CARGO_FEATURE_A_B."
  },
  {
   "property": "C50",
   "status": "proved",
   "theorems": [
    "Verif.Header.write_exact",
    "Verif.Header.write_missing",
    "Verif.Header.write_unneeded",
    "Verif.Header.cxx_proper",
    "Verif.Header.cxx_has",
    "Verif.Header.cxx_sections"
   ],
   "note": "Comments, the #define inside a section and the empty lines around it are left out, as the specification says. The header text in Verif/Header/Text.lean is generated from include/cxx.h by tools/header.py."
  },
  {
   "property": "C30",
   "status": "proved",
   "theorems": [
    "Verif.Preamble.includes_exact",
    "Verif.Preamble.cxx_top",
    "Verif.Preamble.cxx_provides",
    "Verif.Preamble.requested_included",
    "Verif.Preamble.quoted_contained",
    "Verif.Preamble.quoted_verbatim",
    "Verif.Preamble.quoted_not_ascii",
    "Verif.Preamble.arg_bracketed",
    "Verif.Preamble.arg_quoted"
   ],
   "note": "Duplicates are not removed. Paths outside ASCII are written with Rust escapes (quoted_not_ascii)."
  },
  {
   "property": "C31",
   "status": "partial",
   "theorems": [
    "Verif.Preamble.helpers_balance",
    "Verif.Preamble.helpers_declared",
    "Verif.Preamble.asked_declared",
    "Verif.Preamble.bridge_helpers_declared",
    "Verif.Preamble.headers_requested_partial",
    "Verif.Preamble.incoherent_request",
    "Verif.Preamble.headers_missing"
   ],
   "note": "Helpers: proved for every bridge. Headers: proved except for the names in Gap, for which nothing asks (headers_missing): std::size_t in String, Str and Error without <cstddef>; std::swap and std::declval in Slice without <utility>. In practice other headers bring them in."
  },
  {
   "property": "C57",
   "status": "proved",
   "theorems": [
    "Verif.Preamble.generated_helpers_declared",
    "Verif.Preamble.generated_headers_included",
    "Verif.Preamble.generated_new_included"
   ],
   "note": "The text is read token by token. A member helper such as repr is identified by its name without the class it belongs to."
  },
  {
   "property": "C33",
   "status": "proved",
   "theorems": [
    "Verif.Derive.symbols_agree",
    "Verif.Derive.members_exact",
    "Verif.Derive.defs_members",
    "Verif.Derive.operators_agree",
    "Verif.Derive.linkable"
   ],
   "note": "Holds without assuming lawful impls: with Ord derived, partial_cmp forwards to cmp."
  },
  {
   "property": "C48",
   "status": "proved",
   "theorems": [
    "Verif.Derive.cmp_lexicographic",
    "Verif.Derive.partialCmp_lexicographic",
    "Verif.Derive.partialCmp_cmp",
    "Verif.Derive.cmp_lawful",
    "Verif.Derive.partialCmp_lawful",
    "Verif.Derive.partialCmp_not_transitive",
    "Verif.Derive.enum_order"
   ],
   "note": "For PartialOrd without Ord the documented laws of the fields are not enough for transitivity (partialCmp_not_transitive); partialCmp_lawful adds that equal values compare alike."
  },
  {
   "property": "C58",
   "status": "proved",
   "theorems": [
    "Verif.Derive.struct_derives",
    "Verif.Derive.enum_derives",
    "Verif.Derive.derived_by_rust",
    "Verif.Derive.enum_in_patterns",
    "Verif.Derive.struct_clone",
    "Verif.Derive.enum_debug"
   ],
   "note": ""
  },
  {
   "property": "C59",
   "status": "proved",
   "theorems": [
    "Verif.Derive.equal_hash",
    "Verif.Derive.hash_linked"
   ],
   "note": "The hasher and the width of usize are parameters."
  },
  {
   "property": "C39",
   "status": "partial",
   "theorems": [
    "Verif.Shim.rust_call_balanced",
    "Verif.Shim.cxx_call_balanced_partial",
    "Verif.Shim.direct_plain",
    "Verif.Shim.residue_leaks"
   ],
   "note": "Calls of Rust functions: proved in full. Calls of C++ functions: proved for types whose moved-from objects own nothing; otherwise what stays behind is never destroyed (residue_leaks)."
  },
  {
   "property": "C60",
   "status": "partial",
   "theorems": [
    "Verif.Shim.cxx_return",
    "Verif.Shim.rust_return_partial"
   ],
   "note": "For values that C++ moves out of the memory Rust wrote, proved for types whose moved-from objects own nothing."
  },
  {
   "property": "C40",
   "status": "proved",
   "theorems": [
    "Verif.Build.relative_only_names",
    "Verif.Build.outputs_place",
    "Verif.Build.outputs_inside",
    "Verif.Build.prefix_escapes",
    "Verif.Build.inside_distinct",
    "Verif.Build.outside_collides"
   ],
   "note": "Every text as source path. prefix_escapes shows why the include prefix has to go downward, outside_collides why distinctness is only claimed for sources inside the crate."
  },
  {
   "property": "C41",
   "status": "proved",
   "theorems": [
    "Verif.Build.relative_link",
    "Verif.Build.relativize_cases",
    "Verif.Build.relativize_refuses",
    "Verif.Build.unix_absolute",
    "Verif.Build.empty_link",
    "Verif.Build.link_denotes"
   ],
   "note": "Every pair of absolute paths without `..`, on Unix and on Windows volumes. If the link is the original or contains it the script panics; the empty relative path occurs exactly if the original is the directory of the link."
  },
  {
   "property": "C42",
   "status": "proved",
   "theorems": [
    "Verif.Build.write_exact",
    "Verif.Build.write_untouched",
    "Verif.Build.write_twice",
    "Verif.Build.write_frame",
    "Verif.Build.write_completes"
   ],
   "note": "Every prior file system and every way the system calls can end, with reads and writes in pieces of any size. Unix; the file system is an explicit model."
  },
  {
   "property": "C61",
   "status": "proved",
   "theorems": [
    "Verif.Build.concurrent_write",
    "Verif.Build.concurrent_link",
    "Verif.Build.stale_link",
    "Verif.Build.written_file_vanishes"
   ],
   "note": "Every interleaving of any number of scripts. stale_link shows that the proviso about removing is needed; written_file_vanishes shows that the claim is about the time when all scripts have finished."
  },
  {
   "property": "C43",
   "status": "partial",
   "theorems": [
    "Verif.Build.exports_arrive_partial",
    "Verif.Build.lines_lost",
    "Verif.Build.confused_names"
   ],
   "note": "Every crate and every set of dependencies, up to 2^64 directories, through the lines that Cargo reads. Texts with a new line or a blank at the end are not told (lines_lost). Cargo turns links names into variable names by a map that is not injective; confused_names shows that two dependencies `a-b` and `a_b` mix."
  },
  {
   "property": "C44",
   "status": "partial",
   "theorems": [
    "Verif.Build.header_dirs_exact",
    "Verif.Build.firsts_distinct",
    "Verif.Build.unused_links_exact",
    "Verif.Build.unused_prefix_partial",
    "Verif.Build.used_prefix_reported",
    "Verif.Build.longer_prefix_reported",
    "Verif.Build.validate_exact"
   ],
   "note": "Which directories are passed on, unused links names and the checks of the settings are exact. A used prefix is reported as unused if its dependency is also listed by links name or by another prefix (used_prefix_reported, longer_prefix_reported); without such double listing the report is exact."
  },
  {
   "property": "C45",
   "status": "partial",
   "theorems": [
    "Verif.Build.cfg_one_variable_partial",
    "Verif.Build.statement_follows",
    "Verif.Build.cfg_lost_update",
    "Verif.Build.cfg_stale_read",
    "Verif.Build.cfg_left_behind",
    "Verif.Build.cfg_path_changed"
   ],
   "note": "Every interleaving of any number of threads and mentions of CFG that follows a rule of one writer or several readers; single statements follow it. Overlapping changes of different settings lose one of them (cfg_lost_update); a kept mention reads old settings (cfg_stale_read); a mention that is moved after it was read leaves a copy behind (cfg_left_behind); a directory that is not UTF-8 is changed (cfg_path_changed)."
  },
  {
   "property": "C46",
   "status": "proved",
   "theorems": [
    "Verif.Build.interned_text",
    "Verif.Build.intern_returns"
   ],
   "note": "Every history of calls and of other use of the allocator."
  },
  {
   "property": "C49",
   "status": "proved",
   "theorems": [
    "Verif.Gen.generate_exactly",
    "Verif.Gen.reports_exactly",
    "Verif.Gen.macro_exactly"
   ],
   "note": "Every result of parsing, every evaluator of conditions and every writer."
  },
  {
   "property": "C62",
   "status": "proved",
   "theorems": [
    "Verif.Gen.command_writes_nothing",
    "Verif.Gen.command_outputs",
    "Verif.Gen.command_cxx_header",
    "Verif.Gen.outputs_named",
    "Verif.Gen.include_flag"
   ],
   "note": "Every list of outputs, every result of parsing the input and every pattern of files that cannot be written."
  },
  {
   "property": "C63",
   "status": "proved",
   "theorems": [
    "Verif.Gen.bridges_found",
    "Verif.Gen.bridge_rejected",
    "Verif.Gen.shebang_line"
   ],
   "note": "Every tree of items. Bridges inside function bodies, behind cfg_attr, or named through a use declaration are not seen by the generator; the model follows it."
  },
  {
   "property": "C64",
   "status": "partial",
   "theorems": [
    "Verif.Parse.type_accepted",
    "Verif.Parse.type_emitted",
    "Verif.Parse.type_emitted_same_partial",
    "Verif.Parse.unsafe_pointer_changed",
    "Verif.Parse.nested_pin_changed"
   ],
   "note": "The grammar is exact and the emitted type is determined for every accepted type. It is not always the one that was written: `unsafe` and `extern \"C\"` of function pointers are dropped (unsafe_pointer_changed) and Pin<Pin<..>> becomes Pin<..> (nested_pin_changed); without these it is the same type."
  },
  {
   "property": "C65",
   "status": "proved",
   "theorems": [
    "Verif.Parse.attributes_accepted",
    "Verif.Parse.attributes_read",
    "Verif.Parse.last_name_counts"
   ],
   "note": "Every list of attributes and every choice of what an item looks for. The readers of namespaces, conditions and names are parameters; those of namespaces and conditions are modelled in Verif/Qualified and Verif/Cfg. last_name_counts: repeated names are not an error, the last one counts."
  },
  {
   "property": "C66",
   "status": "proved",
   "theorems": [
    "Verif.Parse.items_accepted",
    "Verif.Parse.items_exact"
   ],
   "note": "Every list of items. The input is what syn has parsed; attributes on includes and on arguments are not part of it because the parser does not read them."
  },
  {
   "property": "C67",
   "status": "proved",
   "theorems": [
    "Verif.Parse.safe_call_needs_unsafe",
    "Verif.Parse.unsafety_kept"
   ],
   "note": "Every list of items."
  },
  {
   "property": "C68",
   "status": "proved",
   "theorems": [
    "Verif.Parse.bare_self",
    "Verif.Parse.named_self"
   ],
   "note": "Every accepted bridge."
  },
  {
   "property": "C69",
   "status": "partial",
   "theorems": [
    "Verif.Parse.argument_names_partial",
    "Verif.Parse.argument_names_clash"
   ],
   "note": "An argument without a name is called arg and its position, which another argument may be called as well: fn f(arg1: i32, _: i32). Missing: the case that a written name is arg with a number, where the property is false."
  },
  {
   "property": "C70",
   "status": "partial",
   "theorems": [
    "Verif.Doc.doc_means_nothing_partial",
    "Verif.Doc.backslash_hides_code",
    "Verif.Doc.carriage_return_is_code"
   ],
   "note": "Exact for text without a carriage return, and for all text if the compiler does not take a carriage return for the end of a line. False if the last line ends in a backslash: the line of code behind it becomes part of the comment. False for a lone carriage return with compilers such as clang. Missing: these two cases."
  },
  {
   "property": "C71",
   "status": "partial",
   "theorems": [
    "Verif.Layout.struct_layout_partial",
    "Verif.Layout.type_layout_partial",
    "Verif.Layout.same_cxx_name_disagrees"
   ],
   "note": "Every accepted bridge whose types have different names in C++, and every machine. Types from elsewhere (aliases, generic library types) are assumed to have the layout their ExternType or the library's own assertions promise. False if two shared types have the same C++ name in one namespace: the include guard silently drops the second definition (same_cxx_name_disagrees). Missing: that case."
  },
  {
   "property": "C72",
   "status": "partial",
   "theorems": [
    "Verif.Layout.enum_values_partial",
    "Verif.Layout.enum_variants_complete",
    "Verif.Layout.check_enum_exact",
    "Verif.Layout.enums_written",
    "Verif.Layout.large_values_have_no_literal"
   ],
   "note": "Every enum with fixed-width representation and values of magnitude below 2^63; every header. Missing: i64::MIN and u64 values from 2^63 on, printed as decimal literals that no standard C++ integer type holds (large_values_have_no_literal), and usize/isize, which are not checked at all."
  },
  {
   "property": "C73",
   "status": "partial",
   "theorems": [
    "Verif.Call.call_reaches_partial",
    "Verif.Call.error_clash",
    "Verif.Call.throw_clash",
    "Verif.Call.callback_return_clash",
    "Verif.Call.method_outside"
   ],
   "note": "Every function of every accepted bridge, for all user functions and argument values, with the names of parameters and local variables, shadowing, symbols and linking; callbacks through their trampolines. Missing: names that clash with local variables of the generated code (error_clash, throw_clash, callback_return_clash), overloaded methods with one symbol (C24), types in a namespace std::vector, and Rust methods outside the namespace of their type (method_outside)."
  },
  {
   "property": "C74",
   "status": "partial",
   "theorems": [
    "Verif.Assert.declared_types_fit",
    "Verif.Assert.moved_aliases_trivial_partial",
    "Verif.Assert.alias_across_bridges_partial",
    "Verif.Assert.moved_aliases_relocatable_partial",
    "Verif.Assert.trivial_only_if_moved",
    "Verif.Assert.asserted_only_if_moved",
    "Verif.Assert.moved_in_fn_pointer"
   ],
   "note": "Both directions, for every accepted bridge. Missing: arguments and return types of function pointers, where nothing is demanded although values are moved (moved_in_fn_pointer)."
  },
  {
   "property": "C75",
   "status": "proved",
   "theorems": [
    "Verif.Thread.traits_exact",
    "Verif.Thread.cxx_type_traits",
    "Verif.Thread.object_stays",
    "Verif.Thread.no_race"
   ],
   "note": "Every run of every program over any number of threads. The borrow rules of Rust are part of the step function. That the last owner destroys the object only when no other owner is left is C16, and not part of this model: two threads at one control block may both be the last owner here, which makes the model more permissive."
  },
  {
   "property": "C76",
   "status": "partial",
   "theorems": [
    "Verif.Conv.cxx_arguments_typed_partial",
    "Verif.Conv.cxx_result_typed_partial",
    "Verif.Conv.rust_arguments_typed_partial",
    "Verif.Conv.rust_result_typed_partial",
    "Verif.Conv.trampoline_typed_partial",
    "Verif.Conv.cxx_shim_arguments_typed_partial",
    "Verif.Conv.cxx_shim_result_typed",
    "Verif.Conv.rust_shim_arguments_typed",
    "Verif.Conv.rust_shim_result_typed",
    "Verif.Conv.ref_vec_of_str_mistyped",
    "Verif.Conv.pinned_string_mistyped",
    "Verif.Conv.returned_vec_of_str_mistyped",
    "Verif.Conv.received_vec_of_str_mistyped"
   ],
   "note": "Every function of every accepted bridge, both halves, with the signatures of the functions that the shims call as specification. Missing because the code is wrong: Vec<&str>, which the checks accept and the conversions do not support (ref_vec_of_str_mistyped, returned_vec_of_str_mistyped, received_vec_of_str_mistyped), and Pin<&mut String> and Pin<&mut Vec<T>> (pinned_string_mistyped); generated code for these does not compile. Function pointers with () in their signature (C32) are left out."
  },
  {
   "property": "C77",
   "status": "proved",
   "theorems": [
    "Verif.Thunk.unique_ptr_methods",
    "Verif.Thunk.shared_ptr_methods",
    "Verif.Thunk.weak_ptr_methods",
    "Verif.Thunk.vector_methods",
    "Verif.Thunk.box_members",
    "Verif.Thunk.vec_members",
    "Verif.Thunk.rust_declarations_fit",
    "Verif.Thunk.cxx_declarations_fit"
   ],
   "note": "Both halves of every instantiation, linked by symbol in the whole bridge; the operations of the two standard libraries are arbitrary. Under the hypotheses that the names are identifiers, that no type is in a namespace std::vector (C24), that the completeness assertions in the C++ file hold, and, for Box and Vec, that no two Rust types have one C++ name (the C++ file would define it twice)."
  },
  {
   "property": "C78",
   "status": "partial",
   "theorems": [
    "Verif.Unit.declared_before_use",
    "Verif.Unit.declared_before_call",
    "Verif.Unit.defined_before_held_partial",
    "Verif.Unit.file_written_partial",
    "Verif.Unit.array_before_element"
   ],
   "note": "Types and functions: every bridge for which the files are written. Definitions: missing because the code is wrong, a struct that holds an array of structs may be defined before them (array_before_element). Both files are written for every accepted bridge, except where a function pointer takes (), at which the generator panics (C32)."
  },
  {
   "property": "C79",
   "status": "partial",
   "theorems": [
    "Verif.Unit.members_declared_partial",
    "Verif.Unit.method_like_type",
    "Verif.Unit.method_like_field",
    "Verif.Unit.methods_clash",
    "Verif.Unit.method_elsewhere"
   ],
   "note": "Every accepted bridge whose methods differ, in C++, from the fields, the class and each other, and are in the namespace of their type. Missing because the code does not check this: method_like_type, method_like_field, methods_clash, method_elsewhere."
  },
  {
   "property": "C80",
   "status": "partial",
   "theorems": [
    "Verif.Unit.header_agrees",
    "Verif.Unit.functions_offered",
    "Verif.Unit.types_offered",
    "Verif.Unit.members_defined_partial",
    "Verif.Unit.file_written_partial",
    "Verif.Unit.method_elsewhere"
   ],
   "note": "Declarations, signatures and types: every accepted bridge (the files are written, except where a function pointer takes (), file_written_partial). Definitions of members: missing because the code does not check it, a Rust method in another namespace than its type (method_elsewhere)."
  },
  {
   "property": "C81",
   "status": "proved",
   "theorems": [
    "Verif.Report.errors_shown",
    "Verif.Report.marks_unique",
    "Verif.Report.marks_parsed_text",
    "Verif.Report.always_reported",
    "Verif.Report.hint_apt",
    "Verif.Report.hint_given",
    "Verif.Report.known_apart",
    "Verif.Report.causes_reported"
   ],
   "note": "That the spans of syn lie in the text it parsed is a hypothesis (SpanIn). Drawing the diagnostic on the terminal is codespan_reporting and is not modelled."
  },
  {
   "property": "C82",
   "status": "partial",
   "theorems": [
    "Verif.Load.load_faithful_partial",
    "Verif.Load.load_complete",
    "Verif.Load.load_accepts",
    "Verif.Load.load_representable",
    "Verif.Load.load_needs_dump",
    "Verif.Load.rust_names_distinct",
    "Verif.Load.local_enum_taken",
    "Verif.Load.redeclaration_refused",
    "Verif.Load.documented_refused"
   ],
   "note": "Holds for every translation unit in which no class or function body has an enum of the same name in the same namespace; missing because the code does not check it: such an enum is taken for the one of the namespace (local_enum_taken). Two harmless refusals are recorded too."
  },
  {
   "property": "C83",
   "status": "partial",
   "theorems": [
    "Verif.CxxText.types_read",
    "Verif.CxxText.types_well_formed_partial",
    "Verif.CxxText.functions_read",
    "Verif.CxxText.pointers_read",
    "Verif.CxxText.cxx_prototype_reads",
    "Verif.CxxText.rust_prototype_reads",
    "Verif.CxxText.fields_read",
    "Verif.CxxText.symbol_name",
    "Verif.CxxText.slice_of_references",
    "Verif.CxxText.array_of_references",
    "Verif.CxxText.keyword_as_name"
   ],
   "note": "Reading back holds for every accepted bridge whose C++ names are names of C++; well-formedness for the types without slices or arrays of references. Missing because the code does not check it: slices and arrays of references, and names that are keywords of C++, are accepted and give text that C++ refuses."
  },
  {
   "property": "C84",
   "status": "partial",
   "theorems": [
    "Verif.RustSig.shim_declared_partial",
    "Verif.RustSig.borrows_same",
    "Verif.RustSig.inside_declared_partial",
    "Verif.RustSig.decl_borrows_partial",
    "Verif.RustSig.decl_unclear",
    "Verif.RustSig.alias_replaced"
   ],
   "note": "Holds for every accepted bridge in which no type is named c_char, CxxString or String; these can be declared as aliases (witness alias_replaced). Missing: that the compiler can tell what the result of the extern declaration inside borrows from; it cannot for a method with another reference argument, nor if the only reference argument is a string or slice (witness decl_unclear), so that such functions do not compile."
  },
  {
   "property": "C85",
   "status": "proved",
   "theorems": [
    "Verif.Check.accepted_exact"
   ],
   "note": "The rules are stated in Verif/Check/Rules.lean without the tables of the code. Errors of the parser (C64-C68) and of recursive structs (C21) come before and after and are apart."
  },
  {
   "property": "C86",
   "status": "partial",
   "theorems": [
    "Verif.Words.one_owner",
    "Verif.Words.no_leak",
    "Verif.Words.seen_same",
    "Verif.Words.slices_same",
    "Verif.Words.strings_seen_partial",
    "Verif.Words.strings_confused"
   ],
   "note": "Proved for all values and for all references except references to vectors of strings: from_ref_vec_string and as_vec_string reinterpret a Vec<String> as a Vec<RustString>, which is right only if the compiler gives both the same layout (strings_seen_partial; witness of what happens otherwise: strings_confused). Elements other than strings own nothing in the model."
  },
  {
   "property": "C87",
   "status": "partial",
   "theorems": [
    "Verif.Prototype.cxx_texts_agree_partial",
    "Verif.Prototype.rust_texts_agree",
    "Verif.Prototype.trampoline_texts_agree_partial",
    "Verif.Prototype.items_str",
    "Verif.Prototype.items_tidy",
    "Verif.Prototype.nested_fn_pointer_texts"
   ],
   "note": "Rust functions: complete. C++ functions: missing are bridges with a function pointer type that has () among its parameters. Trampolines: missing are parameters and results that are (), function pointers or CxxVector by value, for which the code is wrong (nested_fn_pointer_texts). That &str is written str is proved of all that the parser returns (items_str)."
  },
  {
   "property": "C88",
   "status": "partial",
   "theorems": [
    "Verif.Stripped.strip_on",
    "Verif.Stripped.calls_in_step",
    "Verif.Stripped.exports_in_step",
    "Verif.Stripped.fields_in_step",
    "Verif.Stripped.variants_in_step",
    "Verif.Stripped.cxx_halves_agree_partial",
    "Verif.Stripped.rust_halves_agree_partial",
    "Verif.Stripped.closed_partial",
    "Verif.Stripped.instances_expected_partial",
    "Verif.Stripped.off_type_breaks",
    "Verif.Stripped.conditional_type",
    "Verif.Stripped.field_changes_abi",
    "Verif.Stripped.instance_left_over"
   ],
   "note": "Which functions, fields and variants are left: complete. The rest is proved where all types and all fields are switched on; it is false otherwise: a type that is switched off always leaves code behind that names it (off_type_breaks), a field that is switched off can change how the struct is passed on one side only (field_changes_abi). Support code that only a switched-off function needs stays in the Rust module without its C++ part (instance_left_over). Not modelled: several bridges in one file, a condition on the module itself."
  },
  {
   "property": "C89",
   "status": "proved",
   "theorems": [
    "Verif.Throw.never_across",
    "Verif.Throw.throw_lands",
    "Verif.Throw.err_lands",
    "Verif.Throw.lands_once",
    "Verif.Throw.default_reports",
    "Verif.Throw.support_noexcept",
    "Verif.Throw.imports_declared",
    "Verif.Throw.entries_noexcept",
    "Verif.Throw.wrappers_noexcept",
    "Verif.Throw.bridge_never_across",
    "Verif.Throw.bridge_throw_lands",
    "Verif.Throw.bridge_err_lands",
    "Verif.Throw.swallowed"
   ],
   "note": "Panics are on the same stack (C12), with the exception of C12's: that exported functions without prevent_unwind panic before Rust 1.81 is excluded by hypothesis. A trycatch of the user's that swallows an exception without calling fail is excluded; it makes Rust read an uninitialised result (swallowed). That a moved-from rust::Error has no message is in C11. Exceptions thrown by destructors during unwinding, and by what() itself, are not modelled."
  },
  {
   "property": "C90",
   "status": "partial",
   "theorems": [
    "Verif.Names.names_once_partial",
    "Verif.Names.type_found_partial",
    "Verif.Names.primitive_found_partial",
    "Verif.Names.method_like_function",
    "Verif.Names.methods_alike",
    "Verif.Names.function_like_operator",
    "Verif.Names.methods_by_mutability",
    "Verif.Names.variants_alike",
    "Verif.Names.derived_twice",
    "Verif.Names.alias_then_struct",
    "Verif.Names.function_like_type",
    "Verif.Names.forbid_hidden",
    "Verif.Names.primitive_captured"
   ],
   "note": "Every accepted bridge whose author keeps the names apart (Distinct). Missing because the code does not check it, each with an accepted bridge that clashes: names with underscores at the ends or doubled (method_like_function, methods_alike), functions called like an operator, methods that differ in the receiver only, equal variants, traits derived twice, a struct after an alias, a C++ function called like an imported constructor. Types called forbid are not found from the hidden block (forbid_hidden), and an alias called bool replaces bool in Rust but not in C++ (primitive_captured). That the names are in scope in the module around the bridge is rustc's to check."
  },
  {
   "property": "C91",
   "status": "proved",
   "theorems": [
    "Verif.PtrTraits.ptr_laws",
    "Verif.PtrTraits.ptr_compared_by_target",
    "Verif.PtrTraits.ptr_hash",
    "Verif.PtrTraits.ptr_text",
    "Verif.PtrTraits.weak_text",
    "Verif.PtrTraits.ptr_deref",
    "Verif.PtrTraits.cxxString_laws"
   ],
   "note": "For every target type: each law of the traits is inherited on its own, so also for types that are only partially ordered. That a non-null pointer has a live target is C16 and C17; the texts of a C++ string are C04 and C05."
  },
  {
   "property": "C92",
   "status": "partial",
   "theorems": [
    "Verif.Stream.stream_partial",
    "Verif.Stream.stream_null",
    "Verif.Stream.read_vectored_partial",
    "Verif.Stream.read_vectored_not_passed_on",
    "Verif.Stream.string_writes",
    "Verif.Stream.string_takes_all"
   ],
   "note": "Missing: read_vectored, which the code does not pass on (read_vectored_not_passed_on), so that it reads into the first buffer only (read_vectored_partial). Strings longer than std::string allows end the process, see C13."
  },
  {
   "property": "C93",
   "status": "partial",
   "theorems": [
    "Verif.Preamble.quoted_path_partial",
    "Verif.Preamble.quoted_path_changed",
    "Verif.Preamble.bracketed_path_partial",
    "Verif.Preamble.blank_lost",
    "Verif.Preamble.include_accepts",
    "Verif.Preamble.option_path"
   ],
   "note": "Exactly when it holds is proved: in quotes for plain ASCII without quotes, apostrophes and backslashes, in angle brackets for paths without blanks and comments. The code falsifies it elsewhere: escape_default turns other characters into escapes that a C++ header name does not have (quoted_path_changed), and blanks between tokens are dropped (blank_lost). How the Rust lexer cuts text into tokens is taken as given."
  },
  {
   "property": "C94",
   "status": "partial",
   "theorems": [
    "Verif.Build.header_found",
    "Verif.Build.source_found",
    "Verif.Build.runtime_found",
    "Verif.Build.runtime_found_dep",
    "Verif.Build.own_found_partial",
    "Verif.Build.foreign_found_partial",
    "Verif.Build.stale_header"
   ],
   "note": "Files of the crate and of other crates are found after the first build in an output directory. In one that was used before, a header that is no longer generated stays and hides a file of the crate (stale_header). Unix; the script runs alone and its system calls succeed (C42 and C61 have failures and concurrency); directories on the way to OUT_DIR are not links."
  },
  {
   "property": "C95",
   "status": "partial",
   "theorems": [
    "Verif.Build.build_spares_partial",
    "Verif.Build.builds_spare_partial",
    "Verif.Build.fresh_clean",
    "Verif.Build.source_deleted",
    "Verif.Build.original_overwritten"
   ],
   "note": "Holds for every history of builds with the same include prefix, killed at any time, if looking for a file and removing a link do not fail. If the prefix is made longer, the new link to the crate is made through the old one, and a directory of the crate with the name is removed with all that is in it (source_deleted). If a link cannot be removed, the file that it leads to is overwritten (original_overwritten). Unix; one script at a time; no name is .. (the include prefix is not checked for it)."
  },
  {
   "property": "C96",
   "status": "partial",
   "theorems": [
    "Verif.Build.target_exact",
    "Verif.Build.target_given",
    "Verif.Build.targets_agree",
    "Verif.Build.target_kept",
    "Verif.Build.targets_kept_partial",
    "Verif.Build.TargetDemo.tag_separates"
   ],
   "note": "Exact for every file system. That builds keep it (target_kept) is proved for builds that change nothing but their own directories, which C95 proves except when the include prefix is made longer or a link cannot be removed; the way up from the output directory has no links. The statement needs its condition: a file CACHEDIR.TAG below the target directory separates a crate (tag_separates)."
  },
  {
   "property": "C97",
   "status": "proved",
   "theorems": [
    "Verif.Lifetimes.lifetimes_fine",
    "Verif.Lifetimes.instance_general",
    "Verif.Lifetimes.type_general",
    "Verif.Lifetimes.bare_rejected"
   ],
   "note": "For every accepted bridge whose own lifetimes are right; cxx does not check that (bare_rejected: impl UniquePtr<C> {} for a type with a lifetime is accepted and rustc rejects what is generated). Whether an elided lifetime in a result has an argument to be taken from is C84, not this."
  },
  {
   "property": "C98",
   "status": "proved",
   "theorems": [
    "Verif.Build.copy_found",
    "Verif.Build.copy_exact",
    "Verif.Build.copy_safe",
    "Verif.Build.copy_marked"
   ],
   "note": "The place of the copies is empty when the copy begins (the failed attempt at a link has removed what was there). A header that is a symbolic link, has another extension or lies deeper is found where links can be made and not found here: shown beside the theorem."
  },
  {
   "property": "C99",
   "status": "proved",
   "theorems": [
    "Verif.Runtime.builtin_shared_ptr",
    "Verif.Runtime.builtin_weak_ptr",
    "Verif.Runtime.builtin_vector",
    "Verif.Runtime.builtin_unique_ptr_vector",
    "Verif.Runtime.builtin_unique_ptr",
    "Verif.Runtime.builtin_vec",
    "Verif.Runtime.builtin_declarations_fit",
    "Verif.Runtime.builtin_vec_declarations_fit"
   ],
   "note": "Linked against the functions of the runtime only; that no other symbol of a program is the same is C54. What the library operations do is a parameter. Strings are not pushed or popped by value."
  },
  {
   "property": "C100",
   "status": "proved",
   "theorems": [
    "Verif.View.chars_shown",
    "Verif.View.chars16_shown",
    "Verif.View.cstring_shown",
    "Verif.View.cstring16_shown",
    "Verif.View.std_string_shown",
    "Verif.View.c_str_shown",
    "Verif.View.slices_shown",
    "Verif.View.null_stopped"
   ],
   "note": "What the caller has to give (a readable aligned array, or null and 0; a terminated C string) is the precondition of the C++ functions; without assertions a null pointer with a length is passed on. That memory stays as it is while Rust looks at it is the caller's duty."
  },
  {
   "property": "C101",
   "status": "proved",
   "theorems": [
    "Verif.Reasons.explanation_right",
    "Verif.Reasons.error_explains",
    "Verif.Reasons.assertion_explains"
   ],
   "note": "For assertion_explains the names are identifiers: no quotes, backslashes or colons. Uses in the arguments of function pointers are no uses in this sense (see C74)."
  },
  {
   "property": "C102",
   "status": "proved",
   "theorems": [
    "Verif.Strings.rust_functions_fit",
    "Verif.Strings.cxx_functions_fit",
    "Verif.Strings.string_members",
    "Verif.Strings.text_members",
    "Verif.Strings.view_members",
    "Verif.Strings.cxx_string_methods",
    "Verif.Strings.missing_without_alloc"
   ],
   "note": "For the runtime with the feature alloc; missing_without_alloc shows what does not link without it. What comes of the operations is in C01, C02, C03, C86 and C100."
  },
  {
   "property": "C103",
   "status": "proved",
   "theorems": [
    "Verif.Placed.declarations_in_place"
   ],
   "note": "For all texts of the parts; the declarations are those of C78 to C80, the blocks of the output those of C28. Forward declarations have their namespaces as text (C29). The blocks of the builtins are in C31."
  },
  {
   "property": "C104",
   "status": "proved",
   "theorems": [
    "Verif.Together.defined_once",
    "Verif.Together.defined_always",
    "Verif.Together.two_sources_clash"
   ],
   "note": "For the text of include/cxx.h and of all helpers; the types of the bridges themselves have guards of their own (C53). Two source files in one translation unit clash (two_sources_clash), which is why one at most is allowed."
  },
  {
   "property": "C105",
   "status": "proved",
   "theorems": [
    "Verif.Cfg.Tree.order_lawful",
    "Verif.Cfg.Tree.found_in_trees",
    "Verif.Cfg.Tree.trees_answer",
    "Verif.Cfg.Tree.loads_all"
   ],
   "note": "std's B-tree is modelled as a search tree that may take any form with the same entries after each insertion."
  },
  {
   "property": "C106",
   "status": "partial",
   "theorems": [
    "Verif.Together.Types.types_defined_once",
    "Verif.Together.Types.unit_layout_partial",
    "Verif.Together.Types.definition_suppressed"
   ],
   "note": "Definitions: proved for all bridges. Layout: false where two bridges define different structs of the same name in C++, since the first header suppresses the definition of the second (definition_suppressed); proved where bridges that define the same name define it alike. As in C71, the types of one bridge have different names in C++."
  },
  {
   "property": "C107",
   "status": "proved",
   "theorems": [
    "Verif.Repro.same_cxx",
    "Verif.Repro.same_rust"
   ],
   "note": "UnorderedMap and UnorderedSet offer no iteration other than retain, which one function uses; the model of that function takes the order of every walk as a parameter. The texts that only depend on a declaration are parameters."
  },
  {
   "property": "C108",
   "status": "proved",
   "theorems": [
    "Verif.Gen.same_code",
    "Verif.Gen.knows_more",
    "Verif.Gen.knows_less",
    "Verif.Gen.library_and_command",
    "Verif.Gen.command_then_build",
    "Verif.Gen.build_then_command",
    "Verif.Gen.library_default",
    "Verif.Gen.errors_one_by_one"
   ],
   "note": "The writer is any function of its options and of the items. Flags and environment say the same if the flags are true of the environment and list all values of the settings they mention (Truthful)."
  },
  {
   "property": "C109",
   "status": "partial",
   "theorems": [
    "Verif.Several.file_accepted",
    "Verif.Several.cxx_function_partial",
    "Verif.Several.rust_function_partial",
    "Verif.Several.trampoline_partial",
    "Verif.Several.instances_partial",
    "Verif.Several.apart_or_halved",
    "Verif.Several.halved_disagrees",
    "Verif.Several.alias_disturbs"
   ],
   "note": "Proved for bridges that are apart. An accepted file whose bridges are not has a struct or enum in one that is a type of C++ in another (apart_or_halved); the two compilers may then disagree (halved_disagrees). Acceptance is also lost if an alias has the name of a builtin type (alias_disturbs). Function pointers as in C87."
  },
  {
   "property": "C110",
   "status": "proved",
   "theorems": [
    "Verif.Check.same_errors",
    "Verif.Check.same_bridges"
   ],
   "note": "About the checks behind the parser. The parser is the same function in both programs; include paths and #[cfg] are C30 and C88."
  },
  {
   "property": "C111",
   "status": "partial",
   "theorems": [
    "Verif.Several.type_lines_partial",
    "Verif.Several.cxx_lines_partial",
    "Verif.Several.rust_lines_partial",
    "Verif.Several.cxx_call_partial",
    "Verif.Several.rust_call_partial",
    "Verif.Several.returns_partial",
    "Verif.Several.halved_changes"
   ],
   "note": "Proved for bridges that are apart, as C109; halved_changes shows that a name shared by two bridges changes what is written. The lines are those of C83 (declarations, pointers, heads of functions and trampolines), not whole files. Calls and returns as in C39 and C60."
  },
  {
   "property": "C112",
   "status": "partial",
   "theorems": [
    "Verif.Plain.names_partial",
    "Verif.Plain.renamed_breaks",
    "Verif.Plain.keyword_breaks"
   ],
   "note": "names_partial says exactly for which accepted bridges it holds: no name for C++ is a raw identifier or a reserved word, and no Rust name of a function, or of a function pointer among the arguments of a C++ function, is a raw identifier. renamed_breaks: with a raw Rust name no cxx_name helps; keyword_breaks: reserved words are accepted. Names of the arguments of function pointers are not modelled."
  },
  {
   "property": "C113",
   "status": "proved",
   "theorems": [
    "Verif.ByValue.messages_exact",
    "Verif.ByValue.messages_counted",
    "Verif.ByValue.named_string"
   ],
   "note": "messages_counted ties the messages to the errors of C85. Aliases are trivial where they are used by value (C74), so there is no such error about them; named_string shows why a name of the library must not be used for an alias (the code lets this pass, see C109)."
  },
  {
   "property": "C114",
   "status": "partial",
   "theorems": [
    "Verif.Panics.macro_panics_exact",
    "Verif.Panics.macro_runs_partial",
    "Verif.Panics.generator_panics_exact",
    "Verif.Panics.raw_name_panics",
    "Verif.Panics.unit_pointer_panics"
   ],
   "note": "The two exact theorems say on which accepted bridges each generator panics: the macro if it writes the type id of a type whose C++ name is a raw identifier (raw_name_panics), the C++ generator if a function pointer takes or returns () (unit_pointer_panics). Panics of the standard library for want of memory or stack are not modelled."
  },
  {
   "property": "C115",
   "status": "partial",
   "theorems": [
    "Verif.Sizes.element_sizes_partial",
    "Verif.Sizes.elements_found_partial"
   ],
   "note": "Proved for bridges in which different types have different C++ names (otherwise C71 already fails), without an alias called CxxString, and for elements that are not references: the bridge accepts &[&T], but rust::Slice<T &> does not compile. For types from headers the author vouches for the layout, as in C71, and that they do not derive from rust::Opaque (the static assertions of C74)."
  },
  {
   "property": "C116",
   "status": "partial",
   "theorems": [
    "Verif.Unsafety.undeclared_rejected",
    "Verif.Unsafety.expansion_partial",
    "Verif.Unsafety.exported_partial"
   ],
   "note": "Undeclared unsafe functions are always rejected. The rest holds for every generated function except the exported function of some extern Rust functions that are declared unsafe: exported_partial says exactly which call them outside of unsafe blocks and which do not compile (unsafe fn f(); is one, bare_not_callable)."
  },
  {
   "property": "C117",
   "status": "partial",
   "theorems": [
    "Verif.Repr.string_layout",
    "Verif.Repr.vec_layout_partial",
    "Verif.Repr.views_layout_partial",
    "Verif.Repr.box_layout",
    "Verif.Repr.smart_pointer_layout_partial",
    "Verif.Repr.stack_string_fits",
    "Verif.Repr.result_layout",
    "Verif.Repr.fn_layout_partial",
    "Verif.Repr.opaque_layout"
   ],
   "note": "Proved from the compile-time checks and what the Rust reference promises about usize and pointers. Not covered by any check, with witnesses: that wide pointers are two words (fat_unchecked; rust::Str and rust::Slice agree just if they are), std::unique_ptr of std::string and of vectors of builtin types (unique_string_unchecked), the alignment of Vec<T> for types T of a bridge (vec_align_unchecked), and the size of function pointers in C++, which fn_layout_partial assumes."
  },
  {
   "property": "C118",
   "status": "proved",
   "theorems": [
    "Verif.Fits.by_value_implemented",
    "Verif.Fits.default_only_if_opaque",
    "Verif.Fits.builtin_by_value_implemented"
   ],
   "note": "For the traits that a bridge implements for its own types and the tables of the runtime for builtin types. UniquePtr<CxxVector<T>> is left out: CxxVector implements no ExternType, so UniquePtr::new does not apply to it. Traits implemented by hand are not considered."
  },
  {
   "property": "C119",
   "status": "proved",
   "theorems": [
    "Verif.Once.support_once",
    "Verif.Once.symbols_across",
    "Verif.Once.functions_support_apart",
    "Verif.Once.same_name_clashes",
    "Verif.Once.shared_function_clashes"
   ],
   "note": "Rust's rule is taken as: no two impls of a trait for a type; generic parameters are ignored. Both conditions are needed: same_name_clashes. The functions that a bridge declares are no supporting functions: two bridges that declare the same C++ function both define its shim (shared_function_clashes)."
  },
  {
   "property": "C120",
   "status": "proved",
   "theorems": [
    "Verif.Once.supported",
    "Verif.Once.book_example",
    "Verif.Once.alias_vec_missing"
   ],
   "note": "What Rust accepts is stated as: no trait twice for a type (C119), the bounds of smart pointers are met by impls of the bridges, and the impls of ExternType and the checks of aliases (C74) compile. Assumed of the author: two declarations of a type in one bridge give it the same C++ name, and no C++ name is a raw identifier. Builtin types are C18, functions that make or take values C118. Box and Vec of aliases are not in the property: nothing checks that another bridge has instantiated them (alias_vec_missing)."
  }
 ]
}