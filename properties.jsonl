{"id": "C01", "title": "UTF-8 gate of rust::String and rust::Str", "statement": "Constructing a rust::String or rust::Str from C++ bytes succeeds exactly when the bytes are well-formed UTF-8 (a concatenation of encodings of Unicode scalar values) and then holds exactly those bytes; otherwise it throws std::invalid_argument and no string exists. Constructing from UTF-16 succeeds exactly on well-formed UTF-16 and then holds the UTF-8 encoding of the same scalar sequence. The lossy constructors never fail and always yield well-formed UTF-8, equal to the input when it is already well-formed.", "quantifier": "every byte sequence and every sequence of 16-bit units, of any length", "why_tests_cant": "The input space is all finite byte strings; the boundary cases (overlong forms, surrogates, truncated tails) are infinitely many in combination and position.", "anchors": ["src/cxx.cc: String::String, Str::Str, initString", "src/symbols/rust_string.rs: string_from_utf8, string_from_utf8_lossy, string_from_utf16, string_from_utf16_lossy", "src/symbols/rust_str.rs: str_from"]}
{"id": "C02", "title": "rust::String stays well-formed over every history", "statement": "Starting from any construction, after any sequence of copy construction, move construction, copy assignment (including self-assignment), move assignment (including self-move), reserve, c_str, and destruction, over any number of live string objects, every live rust::String holds well-formed UTF-8, each heap buffer is owned by exactly one live object, nothing is freed twice, and when all objects are destroyed nothing leaks. A copied string is equal to its source and later changes to one do not show in the other; a moved-from string is empty and usable.", "quantifier": "all finite sequences of rust::String operations over any number of objects", "why_tests_cant": "Aliasing and double-free bugs depend on the order of operations; there are unboundedly many histories.", "anchors": ["src/cxx.cc: rust::String members", "src/symbols/rust_string.rs"]}
{"id": "C03", "title": "rust::String::c_str is a NUL-terminated view", "statement": "c_str() returns a pointer whose first size() bytes are the string's contents and whose next byte is 0, without changing size() or the contents, whatever the capacity was before the call.", "quantifier": "every rust::String state (contents, length, capacity)", "why_tests_cant": "Depends on capacity versus length at the moment of the call, for all sizes.", "anchors": ["src/cxx.cc: String::c_str", "src/symbols/rust_string.rs: reserve_additional"]}
{"id": "C04", "title": "Display of a C++ string equals from_utf8_lossy", "statement": "Formatting a CxxString with {} writes exactly what String::from_utf8_lossy gives: each maximal well-formed piece unchanged and one U+FFFD for each maximal ill-formed subsequence; it terminates on every input without a panic, and on well-formed input writes the input itself. The writer is only given well-formed text, and if it fails, formatting ends there with its error.", "quantifier": "every byte string", "why_tests_cant": "All finite byte strings; the loop restarts at every error position.", "anchors": ["src/lossy.rs: display", "src/cxx_string.rs: Display for CxxString, to_string_lossy"]}
{"id": "C05", "title": "Debug of a C++ string loses no byte", "statement": "Formatting a CxxString with {:?} terminates on every input, starts and ends with a double quote, shows each byte that is not part of well-formed UTF-8 as \\xNN with two lower-case hex digits, escapes each well-formed character as str's Debug does, and never drops or repeats part of the input. The writer is only given well-formed text, and if it fails, formatting ends there with its error; there are no panics.", "quantifier": "every byte string", "why_tests_cant": "All finite byte strings; restart positions and truncated tails interact.", "anchors": ["src/lossy.rs: debug", "src/cxx_string.rs: Debug for CxxString"]}
{"id": "C06", "title": "rust::Str comparison operators form one consistent order", "statement": "For any two rust::Str values, and any two rust::String values, the six operators ==, !=, <, <=, >, >= agree with a single total order (reflexive, antisymmetric, transitive, total), == holds exactly when the bytes are equal, and a proper prefix sorts before its extension; on platforms where char is unsigned the order is the byte order Rust uses for str. The answer depends on nothing but the bytes, and iterating over a string or printing it goes through exactly these bytes.", "quantifier": "every pair and triple of byte strings, both signednesses of char", "why_tests_cant": "Order laws quantify over all triples of unbounded strings.", "anchors": ["src/cxx.cc: String::operator==, String::begin, String::end, operator<<", "src/cxx.cc: Str::operator==, Str::operator<, Str::operator<=", "src/cxx.cc: Str::operator!=, operator>, operator>="]}
{"id": "C07", "title": "rust::Slice bounds and iterator arithmetic", "statement": "rust::Slice iterators satisfy the random-access laws (it+n reached by n increments, (it+n)-it == n, ++ and -- are inverse, order agrees with distance, begin+size == end), iterating from begin to end visits every element exactly once in order, at(n) throws exactly when n >= size, and every access stays inside the slice.", "quantifier": "every slice length, element stride and index", "why_tests_cant": "Pointer arithmetic laws over all lengths and offsets.", "anchors": ["include/cxx.h: Slice, Slice::iterator", "src/cxx.cc: sliceInit"]}
{"id": "C08", "title": "rust::Box owns its object exactly once", "statement": "Over every sequence of rust::Box construction (including a constructor that throws), move construction, move assignment, into_raw, from_raw and destruction, each allocated object is dropped exactly once when its owning Box is destroyed or overwritten, never after into_raw without from_raw, storage is released exactly once, and a constructor that throws releases the storage without dropping an object.", "quantifier": "all finite histories of Box operations over any number of objects", "why_tests_cant": "Ownership bugs depend on operation order and on where an exception is thrown.", "anchors": ["include/cxx.h: rust::Box, Box::allocation"]}
{"id": "C09", "title": "rust::Vec behaves as a sequence", "statement": "Over every history of push_back, emplace_back, reserve, truncate, clear, swap, move, copy and element access, a rust::Vec holds exactly the sequence an abstract list would hold, capacity is never below size, at() throws exactly when out of range, and each element is dropped exactly once.", "quantifier": "all finite operation histories, all element values, sizes and capacities", "why_tests_cant": "Reallocation points and element lifetimes depend on the whole history.", "anchors": ["include/cxx.h: rust::Vec, Vec::emplace_back, Vec::reserve_total", "src/rust_vec.rs: RustVec::reserve_total, truncate, set_len"]}
{"id": "C10", "title": "rust::Error messages survive copies", "statement": "After any sequence of copy, move, copy assignment and move assignment of rust::Error objects, what() of a live object returns the message it was created with (the NUL-terminated text of the Rust error's Display), each message buffer is freed exactly once, and nothing is read after being freed; a moved-from error's what() is a null pointer.", "quantifier": "all finite histories over any number of rust::Error objects and all messages", "why_tests_cant": "Copy and move orders are unbounded.", "anchors": ["src/cxx.cc: rust::Error, errorCopy, cxxbridge1$error", "src/result.rs: to_c_error"]}
{"id": "C11", "title": "Result and exception crossing is faithful", "statement": "A fallible Rust function called from C++ either returns its Ok value or throws rust::Error carrying the Display text of its Err; a fallible C++ function called from Rust either yields Ok with its value or Err with the (lossy UTF-8) what() text of the thrown std::exception. Never both, never neither; an empty message is still an error; the message buffer is freed exactly once.", "quantifier": "all outcomes, all return values, all messages including empty and non-UTF-8", "why_tests_cant": "The outcome is encoded in a pointer being null; all message contents and lengths matter.", "anchors": ["src/result.rs: try, Result::exception, to_c_error", "src/symbols/exception.rs: exception", "src/cxx.cc: repr::PtrLen, impl<Error>::error, Fail", "gen/src/write.rs: write_cxx_function_shim, write_rust_function_shim_impl", "gen/src/builtin.rs: trycatch"]}
{"id": "C12", "title": "A Rust panic never unwinds into C++", "statement": "If the Rust code called through an exported function panics, the process aborts: control never returns to C++ normally or by unwinding, whatever the nesting of calls between the two languages and whichever panic strategy is used; if it does not panic, its value is returned unchanged.", "quantifier": "every nesting of Rust and C++ calls and every panic position", "why_tests_cant": "Call nestings and panic positions are unbounded.", "anchors": ["src/unwind.rs: prevent_unwind, Guard", "macro/src/expand.rs: expand_rust_function_shim_impl"]}
{"id": "C13", "title": "CxxString operations match a byte string", "statement": "Over every history of push_str, push_bytes, clear and reserve a CxxString's as_bytes, len, is_empty, as_c_str (cut at the first NUL), to_str, ==, ordering and hash are those of the abstract byte string; reserve panics exactly when len + additional exceeds usize, terminates when it exceeds max_size(), and otherwise leaves the contents unchanged.", "quantifier": "all histories and all byte strings", "why_tests_cant": "All interleavings of mutation and observation, including interior NUL and overflow boundaries.", "anchors": ["src/cxx_string.rs: CxxString", "src/cxx.cc: cxxbridge1$cxx_string$*"]}
{"id": "C14", "title": "let_cxx_string! constructs and destroys exactly once", "statement": "Every use of let_cxx_string! constructs the C++ string before it is used and destroys it exactly once when the scope is left, on every way of leaving the scope.", "quantifier": "every way the value expression can finish (value, panic, early return) and every way the scope can be left", "why_tests_cant": "Exit paths combine arbitrary user code and panics.", "anchors": ["src/cxx_string.rs: let_cxx_string!, StackString::new, StackString::init, Drop for StackString"]}
{"id": "C15", "title": "CxxVector indexing, iteration, push and pop", "statement": "CxxVector::get(i) is Some of element i exactly when i < len, index_mut likewise, iter() and iter_mut() yields every element once in order with exact remaining length at every point, push appends one element, pop returns the last element or None when empty, and each element is destroyed exactly once.", "quantifier": "all vectors, indices and histories", "why_tests_cant": "Unbounded lengths and histories.", "anchors": ["src/cxx_vector.rs: CxxVector::get, index_mut, push, pop, Iter", "gen/src/write.rs: write_cxx_vector"]}
{"id": "C16", "title": "SharedPtr and WeakPtr lifetimes", "statement": "Over every history of new, clone, downgrade, upgrade, and drop on SharedPtr and WeakPtr, the object is destroyed exactly once, at the moment its last SharedPtr goes away; upgrade gives a non-null pointer to the same object exactly when a SharedPtr to it is alive at that time; null pointers never affect any object; deref panics exactly on null.", "quantifier": "all finite histories over any number of objects and pointers", "why_tests_cant": "Reference-count bugs depend on the order of clones and drops.", "anchors": ["src/shared_ptr.rs: SharedPtr", "src/weak_ptr.rs: WeakPtr", "src/cxx.cc: SHARED_PTR_OPS", "gen/src/write.rs: write_shared_ptr, write_weak_ptr"]}
{"id": "C17", "title": "UniquePtr ownership", "statement": "Over every history of null, new, from_raw, into_raw, move and drop on UniquePtr, each object is destroyed exactly once by the owner that held it last, into_raw gives up ownership and from_raw takes it back, is_null is true exactly when nothing is owned, and dereferencing panics exactly on null.", "quantifier": "all finite histories over any number of pointers", "why_tests_cant": "Ownership transfer orders are unbounded.", "anchors": ["src/unique_ptr.rs: UniquePtr", "gen/src/write.rs: write_unique_ptr", "src/cxx.cc: UNIQUE_PTR_OPS"]}
{"id": "C18", "title": "Built-in instantiations exist on both sides", "statement": "For every primitive element type that the bridge accepts inside SharedPtr, WeakPtr, UniquePtr, CxxVector and Vec without emitting glue for it, the Rust runtime imports and the C++ runtime defines every shim symbol of that instantiation, under the same name.", "quantifier": "every built-in type and every smart pointer or container kind", "why_tests_cant": "The claim is about two tables in two languages and the checker agreeing on every entry.", "anchors": ["src/shared_ptr.rs", "src/weak_ptr.rs", "src/cxx_vector.rs", "src/symbols/rust_vec.rs", "src/cxx.cc: FOR_EACH_*", "syntax/check.rs: check_type_shared_ptr, check_type_cxx_vector, check_type_rust_vec"]}
{"id": "C19", "title": "Enum discriminants", "statement": "For every shared enum the discriminant assigned to each variant is the value written, or one more than the previous variant's (0 for the first); a value outside the explicit repr, or a mix of literal suffixes, is rejected; accepted values all fit the repr type used on both sides.", "quantifier": "every list of variants with arbitrary literals, suffixes and explicit repr", "why_tests_cant": "All lists of all integers; boundaries at every repr limit.", "anchors": ["syntax/discriminant.rs: DiscriminantSet::insert, insert_next, insert", "syntax/parse.rs: parse_enum", "gen/src/write.rs: write_enum"]}
{"id": "C20", "title": "Inferred enum repr is the first that fits", "statement": "When no repr is given, the repr chosen is the first of u8, i8, u16, i16, u32, i32, u64, i64 in which all discriminants fit, and an error is reported exactly when none fits.", "quantifier": "every finite set of discriminants", "why_tests_cant": "All finite integer sets.", "anchors": ["syntax/discriminant.rs: inferred_repr, LIMITS"]}
{"id": "C21", "title": "Struct definitions are emitted in dependency order", "statement": "In the generated C++, every shared struct is defined exactly once, after every shared struct it contains by value; generation fails with an error exactly when by-value containment is cyclic.", "quantifier": "every set of struct definitions", "why_tests_cant": "All finite directed graphs.", "anchors": ["syntax/toposort.rs: sort, visit", "gen/src/write.rs: write_data_structures"]}
{"id": "C22", "title": "Type identity used for deduplication", "statement": "Two occurrences of a type in a bridge are treated as the same type exactly when they are written the same: equality is reflexive, symmetric and transitive, and equal types hash equally, so each distinct type is collected once.", "quantifier": "every type expression of any depth", "why_tests_cant": "Types nest to any depth.", "anchors": ["syntax/impls.rs: PartialEq for Type, Hash for Type", "syntax/types.rs: Types::collect"]}
{"id": "C23", "title": "Ordered set and ordered map", "statement": "The ordered set and map used for types and impls iterate in first-insertion order without duplicates, contain exactly the inserted elements, and insert reports whether the element was new; generated output order is therefore a function of the source order only.", "quantifier": "every sequence of insertions", "why_tests_cant": "All insertion sequences.", "anchors": ["syntax/set.rs: OrderedSet, UnorderedSet", "syntax/map.rs: OrderedMap"]}
{"id": "C24", "title": "Linker symbols do not collide", "statement": "Two different functions, operators, trampolines or instantiations accepted in a bridge get different linker symbols, and a symbol determines the entity it belongs to, provided names contain no '$' (Rust identifiers never do) and no user namespace or name imitates the reserved cxxbridge prefix.", "quantifier": "every pair of namespaces, type names, function names and kinds", "why_tests_cant": "Quantifies over all pairs of names of any length.", "anchors": ["syntax/mangle.rs: extern_fn, operator, c_trampoline, r_trampoline", "syntax/symbol.rs: Symbol, join", "syntax/instantiate.rs", "gen/src/write.rs: write_rust_box_extern and siblings"]}
{"id": "C25", "title": "Type ids identify C++ types", "statement": "The compile-time type id generated for a C++ type determines its fully qualified name: two ids are equal exactly when the namespaces and names are equal, so an alias is accepted exactly when it names the same C++ type.", "quantifier": "every pair of qualified names", "why_tests_cant": "All name sequences of any length.", "anchors": ["macro/src/type_id.rs: expand", "macro/src/expand.rs: type_id, expand_type_alias_verify", "src/type_id.rs"]}
{"id": "C26", "title": "cfg evaluation is three-valued logic", "statement": "A #[cfg(...)] expression on a bridge item keeps the item when it is true and drops it when false under the given configuration; all/any/not follow strong three-valued logic, so an unknown predicate causes an error only when it could change the answer; each distinct problem is reported once.", "quantifier": "every cfg expression of any depth and every configuration", "why_tests_cant": "Expressions nest to any depth.", "anchors": ["gen/src/cfg.rs: eval, try_eval, strip", "syntax/cfg.rs: CfgExpr::merge, parse"]}
{"id": "C27", "title": "Configuration lookup in cxxbridge and cxx-build", "statement": "With the command line tool, a name=value predicate is true exactly when that value was given for the name, false when the name was given without that value (or is an absent feature), otherwise unknown; a bare name is true or false as given and unknown if absent. With cxx-build the answer is that of Cargo's environment variables.", "quantifier": "every set of flags or environment and every predicate", "why_tests_cant": "All flag sets and predicates.", "anchors": ["gen/cmd/src/cfg.rs: FlagsCfgEvaluator", "gen/cmd/src/app.rs: arg_cfg", "gen/build/src/cargo.rs: CargoEnvCfgEvaluator"]}
{"id": "C28", "title": "Namespace and block braces always balance", "statement": "For every sequence of writes and block openings and closings the generator performs in a properly nested way, the emitted text has balanced, correctly named braces, every piece of text sits inside exactly the blocks that were open when it was written, and blocks with no content produce no text; the generator never panics on such a sequence.", "quantifier": "every properly nested sequence of begin_block, end_block, set_namespace and writes", "why_tests_cant": "Sequences of unbounded length with pending-block cancellation.", "anchors": ["gen/src/out.rs: OutFile::begin_block, end_block, Content::write, flush, flush_blocks", "gen/src/block.rs"]}
{"id": "C29", "title": "Items are grouped by namespace without loss", "statement": "Grouping the bridge's items into nested namespaces puts every item exactly once under exactly its own namespace path, keeps source order among items of one namespace, never produces an empty group, and terminates.", "quantifier": "every list of items with arbitrary namespaces", "why_tests_cant": "All lists of all paths.", "anchors": ["gen/src/nested.rs: NamespaceEntries::new, sort_by_inner_namespace"]}
{"id": "C30", "title": "Include section is well formed", "statement": "The include section of generated C++ has every #if closed by one #endif, includes on every platform exactly the user's headers in the order given (a header given twice appears twice) followed by each requested standard header that the platform has, and omits the standard headers which rust/cxx.h already includes exactly when the user includes rust/cxx.h. A quoted path stays inside its quotation marks whatever characters it contains.", "quantifier": "every set of requested headers, every list of user includes and every platform", "why_tests_cant": "All combinations of flags and lists.", "anchors": ["gen/src/include.rs: write, Includes::insert"]}
{"id": "C31", "title": "Builtin definitions are closed under dependency", "statement": "If a bridge needs a C++ helper such as rust::Vec or ManuallyDrop, the output also contains, in front of it, every helper that the text of this helper mentions, inside properly matching namespace blocks, and includes every standard header whose names it uses; helpers that rust/cxx.h declares may come from there if the user includes it.", "quantifier": "every bridge; more generally every set of requested helpers in which each is requested with the type it is made for", "why_tests_cant": "2^n subsets and a one-pass propagation whose order matters.", "anchors": ["gen/src/builtin.rs: write"]}
{"id": "C32", "title": "Both generators agree on the C ABI of every function", "statement": "For every accepted function signature, the extern \"C\" declaration produced by the Rust macro and the one produced by the C++ generator have the same symbol, the same number and order of parameters, the same by-value or by-pointer mode for each, the same return mode (direct, through a trailing out-pointer, or through the result struct).", "quantifier": "every signature over every type expression, for both directions and function pointers", "why_tests_cant": "All signatures of any arity over types of any depth.", "anchors": ["macro/src/expand.rs: expand_cxx_function_decl, expand_rust_function_shim_impl, indirect_return, expand_extern_type", "gen/src/write.rs: write_cxx_function_shim, write_rust_function_decl_impl, write_extern_arg, write_extern_return_type, indirect_return", "syntax/types.rs: needs_indirect_abi"]}
{"id": "C33", "title": "Derived comparison operators match on both sides", "statement": "For every set of derives on a shared struct, every operator symbol referenced by the generated C++ is exported by the generated Rust and vice versa, and each C++ operator (==, !=, <, <=, >, >=) returns what the corresponding Rust operator returns, given lawful Rust impls.", "quantifier": "every set of derives and every pair of values", "why_tests_cant": "Subsets of derives times all values; negation shortcuts are only valid under Eq/Ord laws.", "anchors": ["gen/src/write.rs: write_struct_operators, write_struct_operator_decls", "macro/src/expand.rs: expand_struct_operators"]}
{"id": "C34", "title": "Opaque C++ types are never passed by value", "statement": "If the checker accepts a bridge, no function takes or returns, and no struct contains, an opaque C++ type, an opaque Rust type, or another unsized type by value, at any position.", "quantifier": "every bridge", "why_tests_cant": "All bridges; nested and indirect positions.", "anchors": ["syntax/check.rs: check_api_struct, check_api_fn, is_unsized, is_opaque_cxx"]}
{"id": "C35", "title": "Mutable access to opaque C++ types goes through Pin", "statement": "If the checker accepts a bridge, every mutable reference to an opaque C++ type (argument, return value or receiver) is pinned.", "quantifier": "every bridge", "why_tests_cant": "All bridges.", "anchors": ["syntax/check.rs: check_type_ref, check_api_fn"]}
{"id": "C36", "title": "Mutable references are not conjured", "statement": "If the checker accepts a C++ function returning a mutable reference, some argument (or the receiver) carries a mutable reference or a lifetime that could justify it, or the function is unsafe.", "quantifier": "every signature", "why_tests_cant": "All signatures.", "anchors": ["syntax/check.rs: check_mut_return_restriction"]}
{"id": "C37", "title": "Duplicate names are rejected", "statement": "A bridge in which two items define the same Rust type name is rejected, except that one shared struct or enum may share its name with one extern C++ type; two functions with the same receiver and name are rejected; the decision does not depend on item order.", "quantifier": "every list of items", "why_tests_cant": "All lists and permutations.", "anchors": ["syntax/types.rs: Types::collect"]}
{"id": "C38", "title": "Improper ctype analysis is exact", "statement": "A shared struct is treated as an improper C type exactly when it contains, through any chain of struct fields and of referents, pointees and array elements, a field that is improper; the analysis terminates and does not depend on declaration order, including for cyclic declarations.", "quantifier": "every set of struct definitions", "why_tests_cant": "All finite graphs; a worklist fixpoint.", "anchors": ["syntax/improper.rs: determine_improper_ctype", "syntax/types.rs: Types::collect (fixpoint loop)"]}
{"id": "C39", "title": "Arguments passed by value are destroyed exactly once", "statement": "For a call in either direction with any arguments by value, each argument object is destroyed exactly once, by the callee side that received it, on normal return, on error return and on exception.", "quantifier": "every signature and every outcome", "why_tests_cant": "Signatures times outcomes.", "anchors": ["macro/src/expand.rs: expand_cxx_function_shim, expand_rust_function_shim_impl", "gen/src/write.rs: write_cxx_function_shim, write_rust_function_shim_impl"]}
{"id": "C40", "title": "Generated file paths never escape the output directory", "statement": "For every source path handed to cxx_build, the relative output path contains no parent components and no root, so the generated header and source stay inside the crate's directory for generated files, which is below OUT_DIR unless CFG.include_prefix itself leads out of it; sources at different places inside the crate get different files.", "quantifier": "every path", "why_tests_cant": "All component sequences.", "anchors": ["gen/build/src/paths.rs: local_relative_path, PathExt::with_appended_extension", "gen/build/src/lib.rs: generate_bridge"]}
{"id": "C41", "title": "Relative symlinks point at the original", "statement": "The relative target computed for a symlink, resolved from the directory containing the link, denotes the original path; it is computed exactly when the two paths share a root.", "quantifier": "every pair of absolute paths", "why_tests_cant": "All pairs of component sequences.", "anchors": ["gen/build/src/out.rs: abstractly_relativize_symlink, split_after_common_prefix"]}
{"id": "C42", "title": "Generated files are written idempotently", "statement": "After a successful write the file holds exactly the requested bytes whatever was there before (nothing, a stale file, a symlink); if it already held them it is not touched, so timestamps do not change; writing twice equals writing once.", "quantifier": "every prior file system state and content", "why_tests_cant": "All prior states.", "anchors": ["gen/build/src/out.rs: write"]}
{"id": "C43", "title": "Exported header directories reach dependents in order", "statement": "The header directories, prefixes and links a crate exports through Cargo metadata are read back by a dependent build script as the same directories in the same order, and several dependencies whose links names Cargo can tell apart do not mix.", "quantifier": "every list of exported directories and every set of dependencies", "why_tests_cant": "Lists longer than 9 exercise numeric versus textual order; arbitrary counts.", "anchors": ["gen/build/src/lib.rs: HeaderDir, make_this_crate", "gen/build/src/deps.rs: Crate::print_to_cargo, direct_dependencies"]}
{"id": "C44", "title": "Exported header prefixes are honoured", "statement": "If every prefix listed in CFG.exported_header_prefixes is a prefix of some dependency's include prefix, the build does not fail with an unused-prefix error, and exactly the dependencies matching a listed prefix, or a listed links name are re-exported.", "quantifier": "every list of prefixes and every set of dependencies", "why_tests_cant": "All combinations.", "anchors": ["gen/build/src/lib.rs: make_this_crate, validate_cfg"]}
{"id": "C45", "title": "CFG settings behave as one variable", "statement": "Settings written through cxx_build::CFG are what later reads through CFG see; with several threads each changing different settings, every setting keeps its last written value.", "quantifier": "every sequence and interleaving of reads and writes", "why_tests_cant": "All schedules.", "anchors": ["gen/build/src/cfg.rs: CFG, Cfg, Deref, DerefMut, Drop"]}
{"id": "C46", "title": "Interned strings", "statement": "Interning returns the same handle for the same text and different handles for different texts, and a handle always reads back its text, whatever else is interned.", "quantifier": "every sequence of intern calls", "why_tests_cant": "All histories.", "anchors": ["gen/build/src/intern.rs: intern, InternedString"]}
{"id": "C47", "title": "Namespace attributes parse to the written path", "statement": "A namespace attribute in any accepted form denotes exactly the written sequence of identifiers, printing it back and parsing again gives the same sequence, and an item's namespace is its own attribute, else its extern block's, else the bridge's.", "quantifier": "every qualified name", "why_tests_cant": "All sequences.", "anchors": ["syntax/qualified.rs: QualifiedName", "syntax/namespace.rs", "syntax/attrs.rs"]}
{"id": "C48", "title": "Derived ordering on shared structs and enums", "statement": "derive(PartialOrd, Ord) on a shared struct is lexicographic in field order, a lawful total order whenever each field's is, consistent with derived equality, and partial_cmp equals Some(cmp) when both are derived; on a shared enum it is the order of the discriminants.", "quantifier": "every list of fields and every pair or triple of values", "why_tests_cant": "All field lists and triples.", "anchors": ["macro/src/derive.rs: struct_ord, struct_partial_ord, enum_ord, enum_partial_ord"]}
{"id": "C49", "title": "No output on error", "statement": "If any error is found while parsing, collecting or checking a bridge, no C++ or Rust is generated and every error found in that phase is reported; if none is found, code is generated.", "quantifier": "every input bridge", "why_tests_cant": "All error combinations.", "anchors": ["syntax/report.rs: Errors::propagate", "gen/src/mod.rs: generate", "macro/src/expand.rs: bridge"]}
{"id": "C50", "title": "Header extraction keeps only the requested section", "statement": "Each builtin section copied out of rust/cxx.h into generated code is exactly the text between its include-guard lines, and every section that the generator can request is present in the header.", "quantifier": "every header text and every section name", "why_tests_cant": "All texts.", "anchors": ["gen/src/ifndef.rs: write, find_line", "gen/src/builtin.rs", "include/cxx.h"]}
{"id": "C51", "title": "Names in an accepted bridge always resolve", "statement": "If the checker accepts a bridge, every named type at any depth of any signature, field or impl is a builtin or is declared in the bridge, every method receiver is declared, and every generic instantiation that will be generated is for a declared type, so name lookup during code generation never fails; the instantiations generated are exactly those written in an explicit impl and those of non-builtin, non-alias arguments used somewhere.", "quantifier": "every bridge", "why_tests_cant": "All bridges, types of any depth.", "anchors": ["syntax/resolve.rs: Types::resolve", "syntax/types.rs: Types::collect", "syntax/check.rs: check_type_ident, check_api_fn, check_api_impl", "syntax/instantiate.rs: impl_key"]}
{"id": "C52", "title": "Both halves of a generated instantiation use the same symbols", "statement": "For every generic instantiation (Box, Vec, UniquePtr, SharedPtr, WeakPtr, CxxVector of a bridge type), the linker symbols the Rust expansion imports or exports are exactly those the generated C++ declares or defines, and none is missing because of the kind of the type argument.", "quantifier": "every bridge and every instantiation", "why_tests_cant": "All bridges, namespaces and type names.", "anchors": ["macro/src/expand.rs: expand_rust_box .. expand_cxx_vector", "gen/src/write.rs: write_generic_instantiations and siblings, ToMangled"]}
{"id": "C53", "title": "Include guards of generated types are distinct", "statement": "The include guard around a generated struct, opaque type or enum determines the fully qualified C++ name of the type and whether it is an enum, so definitions of different types never suppress each other and the same type defined by two generated headers is defined once.", "quantifier": "every pair of type names and namespaces", "why_tests_cant": "All pairs of names.", "anchors": ["gen/src/write.rs: write_struct, write_opaque_type, write_enum", "syntax/names.rs: Pair::to_symbol"]}
{"id": "C54", "title": "Bridge symbols do not clash with the runtime library", "statement": "An entity declared in a C++ namespace (other than inside std) never gets the linker symbol of one of the runtime library's own functions; in the root namespace only the documented names can clash.", "quantifier": "every bridge and every runtime symbol", "why_tests_cant": "All bridges.", "anchors": ["syntax/mangle.rs", "src/symbols", "src/cxx.cc"]}
{"id": "C55", "title": "Only trivially copyable data crosses the boundary in registers", "statement": "A type is treated as plain data exactly when its own storage, at any depth, holds only numbers, shared enums, references and pointers; such a type never holds a string, box, vector, smart pointer or a type known only by name; the classification always terminates.", "quantifier": "every bridge and every type", "why_tests_cant": "All struct nestings, including cyclic ones.", "anchors": ["syntax/pod.rs: is_guaranteed_pod", "syntax/primitive.rs: kind", "syntax/types.rs: needs_indirect_abi"]}
{"id": "C56", "title": "The C++ generator can print every accepted type", "statement": "For every type that occurs in a bridge accepted by the checker, the C++ generator prints a C++ type and does not reach one of its internal unreachable branches.", "quantifier": "every accepted bridge and every type in it", "why_tests_cant": "All types of any depth.", "anchors": ["gen/src/write.rs: write_type", "syntax/check.rs: check_type, check_type_fn"]}
{"id": "C57", "title": "Generated C++ refers only to what the output provides", "statement": "Every name in namespace rust and every name in namespace std that the generated shims, declarations and template instantiations of a bridge mention is declared by a helper written in front of them, by rust/cxx.h when the user includes it, or by a standard header that is included; code that constructs objects in place comes with <new>. This holds for the header as well as the source output.", "quantifier": "every bridge, every list of user includes, both kinds of output, every platform", "why_tests_cant": "Which helpers and headers are requested is scattered over some sixty places, each of which must match the text written next to it, for every combination of types, results, receivers and attributes.", "anchors": ["gen/src/write.rs: gen, pick_includes_and_builtins, write_cxx_function_shim, write_rust_function_shim_impl, write_unique_ptr_common", "gen/src/builtin.rs: write", "gen/src/include.rs: write"]}
{"id": "C58", "title": "Derived traits are implemented exactly as listed", "statement": "In an accepted bridge every derive on a shared struct or enum expands, without a panic, to exactly one impl of that trait; enums also implement Copy, Clone, Eq and PartialEq exactly once whether or not they are listed. The impls of Eq, PartialEq, Hash, Serialize and Deserialize are those of Rust's own derive macros, so that the variants of an enum can be used in patterns. Clone copies when Copy is derived and otherwise clones field by field, Default is field by field, and Debug on an enum prints the first variant with the discriminant of the value, or the number if there is none.", "quantifier": "every accepted bridge, every list of derives and every value", "why_tests_cant": "All subsets and orders of derives, and all discriminants including those that no variant has.", "anchors": ["macro/src/derive.rs: expand_struct, expand_enum, struct_clone, struct_default, enum_debug"]}
{"id": "C59", "title": "std::hash of a shared struct agrees with equality", "statement": "When Hash is derived on a shared struct, std::hash in C++ calls the exported Rust function, and values that compare equal have equal hashes whenever that holds for each field.", "quantifier": "every list of derives, list of fields, pair of values and hash function", "why_tests_cant": "Quantifies over all pairs of equal values and all field types.", "anchors": ["gen/src/write.rs: write_std_specializations", "src/hash.rs: hash", "macro/src/expand.rs: expand_struct_operators"]}
{"id": "C60", "title": "Values returned by value change hands exactly once", "statement": "The value that a function returns by value across the bridge, in either direction and whether or not the function is fallible, is the value the caller gets, and no shim destroys it.", "quantifier": "every accepted bridge, every return type in it and every value", "why_tests_cant": "All types, both directions, fallible or not.", "anchors": ["gen/src/write.rs: write_cxx_function_shim, write_rust_function_shim_impl", "macro/src/expand.rs: expand_cxx_function_shim, expand_rust_function_shim_impl"]}
{"id": "C61", "title": "Build scripts that run at the same time do not spoil shared files", "statement": "When several build scripts write the same bytes to one path, or make the same symbolic link there, at the same time, in any interleaving of their system calls and from any prior state, then once all of them have reported success the path holds exactly these bytes, or the link, provided that whatever was in the place of the link could be removed.", "quantifier": "every number of scripts, every interleaving of their system calls, every pattern of failing calls and every prior file system state", "why_tests_cant": "All schedules of several processes, with partial reads and writes.", "anchors": ["gen/build/src/out.rs: write, relative_symlink_file, absolute_symlink_file, symlink_file, best_effort_remove", "gen/build/src/lib.rs: make_include_dir, generate_bridge"]}
{"id": "C62", "title": "The cxxbridge command writes to each output what was asked for", "statement": "Every output named on the command line of cxxbridge gets, in the order given, the generated header if --header was passed or its name ends in .h, .hh or .hpp, and the generated source otherwise; the contents do not depend on which other outputs were asked for. Without an input file every output gets rust/cxx.h. If generation fails, nothing is written and the command fails; if a file cannot be written, the command fails and no later output is touched.", "quantifier": "every list of outputs, every input and every pattern of files that cannot be written", "why_tests_cant": "All combinations of outputs and of failures.", "anchors": ["gen/cmd/src/main.rs: try_main", "gen/cmd/src/app.rs: from_args", "gen/cmd/src/output.rs: Output::ends_with", "gen/src/mod.rs: generate"]}
{"id": "C63", "title": "Every bridge in a source file is generated", "statement": "When a source file is accepted, code is generated for exactly the inline modules that carry #[cxx::bridge], at any depth of inline modules, each once and in source order, with its own namespace, attributes and contents. A file in which #[cxx::bridge] is on something that is not an inline module, or has arguments that are not understood, is rejected, and the first such place is reported.", "quantifier": "every tree of items and attributes", "why_tests_cant": "All nestings of modules.", "anchors": ["gen/src/file.rs: parse, parse_args", "syntax/file.rs: Module::parse", "gen/src/mod.rs: generate_from_string"]}
{"id": "C64", "title": "Types in a bridge are taken exactly as written", "statement": "Which types can be written in a bridge is exactly a stated grammar: names with or without lifetimes, the six smart pointers and containers of one supported type, pinned references, references, slices, raw pointers, arrays of length 1 to 2^64-1, the unit type and function pointers with or without Result; every other type is an error. For a type that is accepted, the type in the Rust signatures that the macro emits is the one that was written, with the well-known names resolved independently of what is in scope at the bridge.", "quantifier": "every Rust type of any depth", "why_tests_cant": "Types nest without bound.", "anchors": ["syntax/parse.rs: parse_type, parse_type_reference, parse_type_path, parse_type_array, parse_type_fn, parse_return_type", "syntax/tokens.rs: ToTokens for Type, Ref, Ty1, SliceRef, Array, Signature"]}
{"id": "C65", "title": "Attributes are honoured or rejected", "statement": "The attributes of anything in a bridge are accepted exactly if each of them is well-formed and has a meaning at that place; otherwise there is an error. If they are accepted, the documentation, derives, representation, namespace and names are those that the attributes give, in order; the condition is that all cfg attributes hold; and rustc sees exactly the cfg attributes and those meant for rustc, serde and clippy, in order. Only on the module itself does the generator skip attributes that it does not know.", "quantifier": "every list of attributes and every kind of item", "why_tests_cant": "All combinations and orders of attributes.", "anchors": ["syntax/attrs.rs: parse, parse_doc_attribute, parse_derive_attribute, parse_repr_attribute, parse_cxx_name_attribute, parse_rust_name_attribute", "syntax/derive.rs: Derive::from"]}
{"id": "C66", "title": "The contents of a bridge are taken exactly as written", "statement": "The items of a bridge are accepted by the parser exactly if each of them is something that a bridge can contain: a struct with named fields, an enum, an extern block of types, aliases, functions and includes, or an empty impl, each with supported generics, types and attributes. If they are accepted, the bridge consists of what the items say, in order, with names, namespaces, conditions, documentation, derives, fields, variants, arguments and results as written; nothing is lost and nothing is made up.", "quantifier": "every list of items of any size", "why_tests_cant": "All combinations of items, attributes and types.", "anchors": ["syntax/parse.rs: parse_items, parse_struct, parse_enum, parse_foreign_mod, parse_extern_type, parse_extern_fn, parse_type_alias, parse_extern_type_bounded, parse_impl"]}
{"id": "C67", "title": "Safe calls into C++ are vouched for", "statement": "If Rust code can call a C++ function of an accepted bridge without writing unsafe, then the function is declared without unsafe in an extern block that is itself marked unsafe, or in a bridge module that is. A function that is declared unsafe stays unsafe to call.", "quantifier": "every bridge", "why_tests_cant": "All bridges, with any number of blocks.", "anchors": ["syntax/parse.rs: parse_foreign_mod, parse_extern_fn"]}
{"id": "C68", "title": "A bare self means the only type of the block", "statement": "In an accepted bridge, a function with the receiver &self or &mut self is in a block that declares exactly one type, and it becomes a method of this type with all else unchanged. A receiver with a type that is spelled out is kept as it is.", "quantifier": "every accepted bridge and every function in it", "why_tests_cant": "All blocks and all receivers.", "anchors": ["syntax/parse.rs: parse_foreign_mod, parse_extern_fn", "syntax/check.rs: check_api_fn"]}
{"id": "C69", "title": "Arguments in generated code have different names", "statement": "If the named arguments of a function have different names in the bridge, then all its arguments, including those without a name, have different names in the generated code.", "quantifier": "every function", "why_tests_cant": "All lists of arguments.", "anchors": ["syntax/parse.rs: parse_extern_fn"]}
{"id": "C70", "title": "Documentation does not change the generated code", "statement": "The documentation of an item, whatever its text, has no effect on what a C++ compiler makes of the generated code around it.", "quantifier": "every documentation text and everything that may follow it", "why_tests_cant": "All texts, with all ways of ending a line.", "anchors": ["gen/src/write.rs: write_doc", "syntax/doc.rs: Doc::to_string"]}
{"id": "C71", "title": "Shared structs have one layout", "statement": "Every shared struct of an accepted bridge that no C++ header defines is a struct with the C representation in Rust and a struct in C++ with the same fields in the same order, and on every platform, whatever the sizes and alignments of its basic types, all fields are at the same offsets and the structs have the same size and alignment in both languages. The same is true of every type that can be a field.", "quantifier": "every accepted bridge, every shared struct in it, nested to any depth, and every platform", "why_tests_cant": "All bridges and all platforms; a difference shows as memory corruption at run time and only for some types.", "anchors": ["macro/src/expand.rs: expand_struct, expand_enum", "gen/src/write.rs: write_data_structures, write_struct, write_enum, write_opaque_type, write_type", "syntax/toposort.rs: sort"]}
{"id": "C72", "title": "Shared enums have the same values", "statement": "Every variant of an accepted shared enum is a constant in Rust and an enumerator in C++, under its respective name, and both have the value it is given in the bridge, or one more than the previous variant. An enum that a C++ header defines compiles only if it is an enum of the size of its representation type and every variant has the same value as in Rust.", "quantifier": "every accepted enum with any number of variants, and every header", "why_tests_cant": "All values up to the limits of the representation types.", "anchors": ["macro/src/expand.rs: expand_enum", "gen/src/write.rs: write_enum, check_enum", "syntax/discriminant.rs: Display, ToTokens, DiscriminantSet::insert"]}
{"id": "C73", "title": "Calling a function of the bridge calls that function", "statement": "Calling a function or method that a bridge declares, from the other language, runs the user's function that the declaration stands for, exactly once, with the same arguments in the same order, and the caller gets its result, or its error if it is declared to return a Result. A function pointer that Rust passes to C++ is an object that, whenever it is called, calls that Rust function with the arguments it is given and hands back its result.", "quantifier": "every accepted bridge, every function and method in it, every behaviour of the user's functions, and all argument values", "why_tests_cant": "All signatures and combinations of names; a wrong symbol, a shadowed variable or a misplaced out-pointer only shows for some of them.", "anchors": ["macro/src/expand.rs: expand_cxx_function_shim, expand_function_pointer_trampoline, expand_rust_function_shim_impl, expand_rust_function_shim_super", "gen/src/write.rs: write_cxx_function_shim, write_function_pointer_trampoline, write_rust_function_shim_decl, write_rust_function_shim_impl", "syntax/mangle.rs", "include/cxx.h: Fn::operator()"]}
{"id": "C74", "title": "Types from elsewhere are what they claim to be", "statement": "If the code generated for an accepted bridge compiles, then: every opaque Rust type of it is Sized and Unpin; no shared struct implements Drop; no opaque C++ type is Unpin; every type that it imports with `type T = path;` has, by its ExternType impl, the qualified C++ name that the bridge gives it, so a type imported from another bridge is the same C++ type in both; and if Rust code can get and move a value of an imported type (by value, in a field, Box, Vec, slice or array, or behind an unpinned mutable reference) then the type says that it is trivial, and C++ agrees that it is relocatable. Of imported types that Rust cannot move nothing more than the name is demanded.", "quantifier": "every accepted bridge, every pair of bridges, and all types and ExternType impls of the user", "why_tests_cant": "All ways to use a type and all types of the user; a missing check shows only as memory corruption when a C++ object with an address-dependent state is moved.", "anchors": ["macro/src/expand.rs: expand_type_alias_verify, expand_cxx_type_assert_pinned, expand_rust_type_assert_unpin, expand_struct_forbid_drop", "gen/src/write.rs: check_trivial_extern_type", "syntax/trivial.rs: required_trivial_reasons", "src/extern_type.rs: verify_extern_type, verify_extern_kind", "include/cxx.h: IsRelocatable"]}
{"id": "C75", "title": "Smart pointers cross threads only when their contents may", "statement": "Programs of safe code, however their threads interleave, cannot race on a C++ object through UniquePtr, SharedPtr, WeakPtr, CxxVector and shared structs of them: an object of a type that is not Send is written to and destroyed only by the thread that made it, and read only by it if the type is not Sync either; no two threads can access an object at the same time unless its type is Sync, and none can while another one can write to it. Opaque C++ types are neither Send nor Sync unless the user says so, and a type is Send or Sync exactly if what it owns and what it shares are as needed.", "quantifier": "every nesting of the types, every number of threads, every program and every interleaving", "why_tests_cant": "A wrong bound on Send or Sync compiles, and shows only in some interleavings of some programs.", "anchors": ["src/unique_ptr.rs: Send for UniquePtr, Sync for UniquePtr", "src/shared_ptr.rs: Send for SharedPtr, Sync for SharedPtr", "src/weak_ptr.rs: Send for WeakPtr, Sync for WeakPtr", "src/cxx_vector.rs: CxxVector", "src/opaque.rs: Opaque, SyncUnsafeCell", "macro/src/expand.rs: expand_cxx_type"]}
{"id": "C76", "title": "Conversions in generated code have the types they need", "statement": "In the Rust and C++ code generated for an accepted bridge, every argument that a shim passes on has the type of the parameter it is passed for, after the conversions that the shim applies, and every result is converted to the type that is returned or stored through the out-pointer; so the generated code compiles, and no cast in it changes the type of what is passed by accident.", "quantifier": "every accepted bridge, every function in it, and every argument and return type, nested to any depth", "why_tests_cant": "All combinations of smart pointers, references, pins, strings, vectors and slices with both directions and fallible functions.", "anchors": ["macro/src/expand.rs: expand_cxx_function_shim, expand_rust_function_shim_impl", "gen/src/write.rs: write_cxx_function_shim, write_rust_function_shim_impl", "src/rust_string.rs", "src/rust_vec.rs", "src/rust_str.rs", "src/rust_slice.rs", "include/cxx.h"]}
{"id": "C77", "title": "Operations on smart pointers of bridge types do what they are named after", "statement": "For every smart pointer or container of a type of an accepted bridge, each operation that the runtime performs through generated code reaches the function of the other language meant for it and performs there the one library operation it is named after, with its arguments in their roles: clone copies from the first handle into the second, upgrade locks the weak handle into the shared one, a new pointer owns the memory the value is stored in, push moves and destroys, pop moves out and removes. Both declarations of each function agree on the number, kind and mutability of parameters and on the result. Construction from a value, push and pop exist exactly for structs, enums and aliases.", "quantifier": "every accepted bridge, every instantiation of Box, Vec, UniquePtr, SharedPtr, WeakPtr and CxxVector in it, every argument, every state of the program and every behaviour of the library operations", "why_tests_cant": "The two halves are written by different generators and are joined only by symbols; a test uses a few types.", "anchors": ["macro/src/expand.rs: expand_rust_box, expand_rust_vec, expand_unique_ptr, expand_shared_ptr, expand_weak_ptr, expand_cxx_vector", "gen/src/write.rs: write_generic_instantiations, write_unique_ptr_common, write_shared_ptr, write_weak_ptr, write_cxx_vector, write_rust_box_impl, write_rust_vec_impl"]}
{"id": "C78", "title": "Generated C++ declares before it uses", "statement": "In the C++ header and source file generated for an accepted bridge, every type is declared before it is mentioned, defined before a value of it is held or passed, and every function is declared before it is called and in the namespace where the call looks for it, whatever the order of the items in the bridge; and both files can be written.", "quantifier": "every accepted bridge with its items in any order, and every declaration of the header and the source file", "why_tests_cant": "All orders of items and all ways in which structs, enums, opaque types, functions and callbacks refer to each other.", "anchors": ["gen/src/write.rs: gen, write_data_structures, write_functions, write_generic_instantiations", "syntax/toposort.rs: sort"]}
{"id": "C79", "title": "Members of generated classes are declared and defined once", "statement": "Every member function that the generated C++ source file defines (methods implemented in Rust, comparison operators, layout) is declared by exactly one class definition before it, once and with the same signature, and is defined once; every member function that a shim takes the address of is declared with the type of that pointer, if the class is generated.", "quantifier": "every accepted bridge whose names do not clash, every method of either language and every derived operator", "why_tests_cant": "All sets of methods on all types, overloaded on const, in all orders and namespaces.", "anchors": ["gen/src/write.rs: write_struct, write_opaque_type, write_rust_function_shim_decl, write_struct_operator_decls, write_struct_operators, write_opaque_type_layout, write_cxx_function_shim"]}
{"id": "C80", "title": "The generated header offers what the bridge declares", "statement": "The generated header declares every Rust function and method of the bridge in its namespace and under its C++ name, with the documented C++ type for each argument and for the result, const for methods whose receiver is not mutable, and noexcept unless it returns a Result; it defines every shared struct with its fields in order and with the documented types, every enum and every opaque Rust type, and the source file has a caller for every C++ function. Everything that the header declares, the source file defines, or the bridge expects it from C++.", "quantifier": "every accepted bridge, every function, method, struct, enum and opaque type in it, and every type of an argument, field or result, nested to any depth", "why_tests_cant": "All sets of items; a function or member that is missing from one of the two files only shows when some user calls it.", "anchors": ["gen/src/write.rs: gen, write_forward_declarations, write_data_structures, write_functions, write_type, write_rust_function_shim_decl, write_cxx_function_shim"]}
{"id": "C81", "title": "Errors are shown where they are", "statement": "When the command or the build helper refuses a file, it shows every error that was found once, in the order of the file, with the full message and marked at exactly the bytes of the text the error is about, whatever characters and line breaks the file has and whether or not it starts with a #! line; a hint is attached only to a message it was written for; and it never panics while reporting.", "quantifier": "every source text, every list of errors with spans in that text, every failure to read the file", "why_tests_cant": "All texts with characters of one to four bytes, spans over any number of lines, and any order of the errors; a wrong offset panics only on texts with such characters.", "anchors": ["gen/src/error.rs: format_err, report, sort_syn_errors, display_syn_error, diagnose", "gen/src/mod.rs: generate_from_path, generate_from_string", "syntax/error.rs: ERRORS"]}
{"id": "C82", "title": "Variants from a header are those of the C++ enum", "statement": "An enum with #![variants_from_header] gets exactly the enumerators of the C++ enum of that qualified name, in order, with the values C++ gives them and with the underlying type of the C++ enum as its representation; if there is no definition, more than one, no fixed underlying type, or a value or name that cannot be represented, the bridge is refused; enums that are defined once with representable enumerators are loaded.", "quantifier": "every C++ translation unit (nested namespaces, unnamed namespaces, class bodies, declarations in advance), every list of enums of a bridge", "why_tests_cant": "All nestings of namespaces, orders of declarations, and sequences of explicit and implicit values; the C++ side has no assertion for these enums, so a wrong value goes unnoticed.", "anchors": ["macro/src/load.rs: load, traverse, translate_qual_type, discriminant_value", "macro/src/clang.rs: Clang", "syntax/discriminant.rs: checked_succ, FromStr for Discriminant"]}
{"id": "C83", "title": "The generated types and declarations read back as what the bridge means", "statement": "Read by the rules of C++ (longest match, the rule for <::, the grammar of declarations), the text generated for a type of an accepted bridge is one C++ type, the one that the table of the documentation gives for the Rust type; the head of a C++ function that calls Rust, the extern C prototypes, the fields of structs, and the pointers through which shims call C++ functions read back as declarations of exactly those names, parameters, results and qualifiers; the types are well-formed.", "quantifier": "every accepted bridge whose names are names of C++, every type occurring in it, every function, with or without receiver, inside or outside the class", "why_tests_cant": "All nestings of the types, with spaces, template brackets and scope operators meeting in any order (`<::`, `>>`, `&&`); a test compiles only the combinations somebody wrote.", "anchors": ["gen/src/write.rs: write_type, write_type_space, write_type_to_generic_writer, write_atom, write_cxx_function_shim, write_rust_function_decl_impl, write_rust_function_shim_decl, write_return_type, write_indirect_return_type, write_extern_arg"]}
{"id": "C84", "title": "Functions of the expanded module have the declared signatures", "statement": "For every function of C++ declared in an accepted bridge, the Rust function or method that the macro generates has the declared name, unsafety, lifetimes, receiver, arguments and result (with Result<T> as Result<T, Exception>); a returned reference without a lifetime borrows from the same argument as in the declaration, also in the extern declaration inside. For every function of Rust, the generated code calls super::f or T::f in a function of exactly the declared signature, with the arguments in order, and an unsafe function can be exported only if it is declared unsafe.", "quantifier": "every accepted bridge, every function in its blocks, with or without receiver, with explicit, elided or no lifetimes, every type and argument", "why_tests_cant": "All combinations of receivers (self, Self or a type that is spelled out, pinned or not), lifetimes, types and results; a test sees only the signatures it declares, and a wrong lifetime shows only in a program that misuses the result.", "anchors": ["macro/src/expand.rs: expand_cxx_function_decl, expand_cxx_function_shim, expand_rust_function_shim_impl, expand_rust_function_shim_super, expand_return_type, expand_extern_type", "macro/src/tokens.rs: ReceiverType, ReceiverTypeSelf", "syntax/tokens.rs: NamedType, Type"]}
{"id": "C85", "title": "A bridge is accepted exactly if it follows the rules", "statement": "A bridge is accepted exactly if (1) no type or function is defined twice, (2) names avoid the prefix cxxbridge and, in C++, double underscores, (3) each type that occurs at any depth follows the rule for its form (a name is built in or declared; what Box, Vec, UniquePtr, SharedPtr, WeakPtr and CxxVector can contain; references, pointers, slices, arrays, function pointers) and (4) each item follows the rule for its kind (reserved names, lifetimes, derives, fields, variants, receivers, arguments, results, mutable results, explicit instantiations). In particular nothing that follows the rules is rejected.", "quantifier": "every bridge, of any number of items, with types of any depth, both for the macro and for the code generator", "why_tests_cant": "The rules interact (whether an alias may be passed by value depends on its uses anywhere in the bridge), and a test of acceptance covers only the bridges that are tried; that valid bridges are not rejected cannot be tested by rejecting invalid ones.", "anchors": ["syntax/check.rs: typecheck, do_typecheck and all check_* functions", "syntax/ident.rs: check_all", "syntax/trivial.rs: required_trivial_reasons", "syntax/types.rs: Types::collect"]}
{"id": "C86", "title": "Strings, vectors and slices handed over keep their contents and have one owner", "statement": "Whatever layout the compiler chooses for String, Vec and slice references, and whatever a program does (making strings and vectors, handing them to C++ as rust::String and rust::Vec, taking them back, dropping them on either side, in any order): there is no double free, each value keeps its contents and capacity, each allocation belongs to exactly one value, and nothing is left when all values are dropped. A reference or slice handed over refers to the same contents on the other side.", "quantifier": "every layout, every program (sequence of operations), every content and length, vectors of strings and of other elements", "why_tests_cant": "The layouts are not specified and depend on the compiler; a leak or double free shows only after a particular sequence of conversions and drops.", "anchors": ["src/rust_string.rs: RustString", "src/rust_vec.rs: RustVec", "src/rust_slice.rs: RustSlice", "src/rust_str.rs: RustStr", "src/symbols/rust_slice.rs", "src/symbols/rust_str.rs"]}
{"id": "C87", "title": "Both compilers see the same function", "statement": "For every function of an accepted bridge, and for every function pointer passed to C++, the extern declaration that rustc reads in the expanded module and the extern prototype that the C++ compiler reads in the generated file, each understood by the rules of its own language, are of the same C function: the same link name, as many parameters in the same order, every pair of parameter types and the result types standing for the same data with the same mutability, and no type that the C++ ABI would pass by hidden reference.", "quantifier": "every accepted bridge with legal names, every function of it in either direction, every function pointer argument", "why_tests_cant": "The two texts are produced by two generators that share no code, and neither compiler sees the other text; a disagreement links without an error and corrupts memory at run time.", "anchors": ["macro/src/expand.rs: expand_cxx_function_decl, expand_rust_function_shim_impl, expand_function_pointer_trampoline, expand_extern_type", "gen/src/write.rs: write_cxx_function_shim, write_rust_function_decl_impl, write_function_pointer_trampoline, write_type"]}
{"id": "C88", "title": "Both halves agree on what #[cfg] switches off", "statement": "For every configuration that both generators are given: a function, a field of a struct or a variant of an enum that the bridge puts under #[cfg] is present in the expanded Rust module after rustc has applied the attributes exactly if the C++ generator writes it, fields and variants in the same order.  What is left makes sense on its own: every type that is still named is still defined, the declarations of a function on the two sides are of the same C function, and the support code for Box, Vec, smart pointers and vectors is there on both sides or on neither.", "quantifier": "every bridge that parses, every assignment of truth values to cfg predicates, every evaluator of the build script that agrees with it, every function, field, variant and type", "why_tests_cant": "The condition is evaluated twice, by rustc on attributes that the macro has copied and by the build script on expressions that it has parsed itself, and a bridge with n predicates has 2^n configurations.", "anchors": ["gen/src/cfg.rs: strip", "syntax/attrs.rs: parse", "macro/src/expand.rs: expand, expand_struct, expand_enum, expand_cxx_function_shim, expand_rust_function_shim, expand_rust_type_import, expand_cxx_type", "gen/src/mod.rs: generate"]}
{"id": "C89", "title": "An exception never leaves its language except as an error", "statement": "A C++ exception is never propagated through Rust frames, and a Rust Err is never lost on its way to C++. However Rust and C++ call each other, an exception that C++ code throws ends at the first try block above the boundary that catches its type; if there is none, then in the calling Rust function as Err with the text that trycatch reports, if the function is declared to return a Result and trycatch reports the exception; otherwise the process terminates. Without a trycatch of the user's, exactly exceptions derived from std::exception are reported, with what(). A Rust function that returns Err throws rust::Error with its text in its C++ caller. Every C++ function that Rust calls is noexcept, and a C++ function that calls Rust is noexcept exactly if the Rust function does not return a Result.", "quantifier": "every sequence of calls in either direction at any depth, try blocks, catch_unwind, throws of objects of any type, panics and errors; every trycatch that reports or rethrows; every accepted bridge; every instance of a support function", "why_tests_cant": "Stacks of calls of the two languages are nested without limit, the exception may be of any type, and a single function without noexcept would be enough for undefined behaviour.", "anchors": ["gen/src/write.rs: write_cxx_function_shim, write_rust_function_shim_decl, write_rust_function_shim_impl, write_unique_ptr_common, write_shared_ptr, write_weak_ptr, write_cxx_vector", "gen/src/builtin.rs: trycatch", "src/cxx.cc: Fail, cxxbridge1$cxx_string$*, STD_VECTOR_OPS, SHARED_PTR_OPS", "include/cxx.h: Fn::operator()", "src/unwind.rs: prevent_unwind", "syntax/check.rs: check_type_fn"]}
{"id": "C90", "title": "Every name in the expanded Rust module is defined once and means what it says", "statement": "In the Rust module that the macro produces from an accepted bridge, no name is defined twice: not in the module, not among the hidden functions that C++ calls, and not among the methods and constants of a type. The name of a type of the bridge refers to that type wherever generated code uses it, and the name of a primitive type refers to the primitive type.", "quantifier": "every accepted bridge, with any number of types, functions, methods, derives, variants and instantiations under any names, and every module around it", "why_tests_cant": "Names of generated functions are put together out of names that users choose (types, functions, operators), so whether two of them meet depends on the spelling of all names in the bridge at once.", "anchors": ["macro/src/expand.rs: expand, expand_struct_operators, expand_enum, expand_cxx_type, expand_cxx_function_shim, expand_rust_type_import, expand_rust_function_shim, expand_forbid, expand_rust_box, expand_rust_vec", "syntax/types.rs: Types::collect", "syntax/check.rs: check_reserved_name", "syntax/tokens.rs"]}
{"id": "C91", "title": "Smart pointers compare, hash and print as what they point to", "statement": "UniquePtr, SharedPtr and CxxString keep the laws of the standard traits: if the target type keeps those of PartialEq, Eq, PartialOrd, Ord and Hash, so do pointers to it. Two pointers are compared by their targets and not by address, null being equal to null and less than everything else. Null prints as nullptr, other pointers print as their target with the same formatting flags, a WeakPtr as what it can be upgraded to. Dereferencing null panics with a message that names the operation and the type. A CxxString is equal to another, or to a str on either side, if the bytes are the same.", "quantifier": "every target type with any implementations of the traits, every memory, and all pairs and triples of pointers or strings", "why_tests_cant": "The laws speak of all triples of values and of every user-defined target type, lawful or only partly so.", "anchors": ["src/unique_ptr.rs: Deref, DerefMut, Debug, Display, PartialEq, PartialOrd, Ord, Hash", "src/shared_ptr.rs: Deref, Debug, Display, PartialEq, PartialOrd, Ord, Hash", "src/weak_ptr.rs: Debug", "src/cxx_string.rs: PartialEq, PartialOrd, Ord, Hash"]}
{"id": "C92", "title": "A UniquePtr to a stream is that stream", "statement": "Reading, writing and seeking through a UniquePtr does what the same calls on the target do, method by method, whatever the target does in them; on a null pointer every call panics without any effect. Writing to a C++ string, directly or through a UniquePtr, never fails and appends exactly the bytes that it reports as taken.", "quantifier": "every target implementation, every history of calls of the methods of Read, Seek and Write with any buffers, and every compiler version", "why_tests_cant": "Targets may override any method of the traits and keep any state, so agreement has to hold for all of them and for whole histories.", "anchors": ["src/unique_ptr.rs: Read, Seek, Write, UniquePtr::pin_mut", "build.rs: seek_relative", "src/cxx_string.rs: fmt::Write, io::Write, CxxString::push_bytes"]}
{"id": "C93", "title": "The header that include! names is the header that is included", "statement": "A path given to include!, in quotes or in angle brackets, and a path given to the --include option of the command become one line of C++ from which the preprocessor reads the same path, with the same kind of delimiters.", "quantifier": "every path: any characters in quotes, any sequence of tokens with any blanks in angle brackets, and any command line argument", "why_tests_cant": "Paths may contain any character; which of them survive the lexing of Rust, the escaping and the lexing of C++ is a question about all of them.", "anchors": ["syntax/parse.rs: parse_include", "gen/src/include.rs: write", "gen/cmd/src/app.rs: from_args"]}
{"id": "C94", "title": "Headers are found after the build", "statement": "After cxx_build::bridges has succeeded, the include path of the C++ build finds rust/cxx.h, finds for each Rust source file the header generated from it under both its names, finds every file of the crate under the include prefix unless a generated header has the same name, and looks for everything else in the directories of other crates only.", "quantifier": "every project layout, every list of source files whose include paths do not meet, every file system before the build, every sequence of outcomes of system calls", "why_tests_cant": "Each of the files written could replace, remove or hide another one; which paths collide depends on all names, on what an earlier build has left and on the order of the calls.", "anchors": ["gen/build/src/lib.rs: build, make_this_crate, make_crate_dir, make_include_dir, generate_bridge", "gen/build/src/out.rs: write, relative_symlink_file, absolute_symlink_file, relative_symlink_dir"]}
{"id": "C95", "title": "A build changes nothing but its own directories", "statement": "Whatever earlier builds have left, and whether it succeeds, fails or is killed, a run of cxx_build::bridges creates, changes and removes nothing outside of OUT_DIR/cxxbridge and the shared cxxbridge directory, except that missing directories on the way to them are made. In particular the sources of the crate stay as they are.", "quantifier": "every project layout, every list of source files, every state left by earlier builds with links among the directories, every sequence of outcomes of system calls, every time at which the script is killed", "why_tests_cant": "Paths lead through symbolic links that earlier builds have made, one of them to the sources of the crate; a removal that follows such a link is only seen with that particular history.", "anchors": ["gen/build/src/lib.rs: build, make_crate_dir, make_include_dir, generate_bridge", "gen/build/src/out.rs: write, prepare_parent_directory_for_symlink, best_effort_remove, symlink_dir"]}
{"id": "C96", "title": "All crates of a build share one directory and go on sharing it", "statement": "The directory in which the crates of a build share their headers is the cxxbridge directory in CARGO_TARGET_DIR if that is an absolute path, and otherwise in the nearest directory above OUT_DIR that Cargo or its name marks as the target directory. So crates whose output directories lie in one target directory, and below it in no other, share one directory, and no build, failed or killed, makes any crate find another one later.", "quantifier": "every path of an output directory, every file system, every value of CARGO_TARGET_DIR, every sequence of builds of any crates in the workspace and of outcomes of system calls", "why_tests_cant": "The search reads the state of the file system above OUT_DIR, which builds of all crates change; whether one of them leaves a file that redirects another is a question about all layouts and histories.", "anchors": ["gen/build/src/target.rs: find_target_dir", "gen/build/src/lib.rs: Project::init"]}
{"id": "C97", "title": "A type with lifetimes can be used wherever one without can", "statement": "If the lifetimes that a user writes in an accepted bridge are as Rust demands, so are those in all code that the macro generates: every item declares the lifetimes that occur in it, none is left out where Rust wants it written, and every type is given as many as its declaration has. The traits behind a type of the bridge, and an instantiation such as UniquePtr<T> that is only used in a signature, are implemented for every choice of the type's lifetimes.", "quantifier": "every accepted bridge, every number of lifetimes of its types, every signature, derive and instantiation", "why_tests_cant": "Where a generated item stands decides which lifetimes are visible in it; the combinations of items, nested functions, elided lifetimes and explicit impls have no bound.", "anchors": ["macro/src/generics.rs: ImplGenerics::split_for_impl, UnderscoreLifetimes", "macro/src/expand.rs: expand", "macro/src/derive.rs: expand_struct", "syntax/resolve.rs: resolve"]}
{"id": "C98", "title": "Without symbolic links, a crate's headers are found all the same", "statement": "Where no symbolic link to the crate can be made and no other call fails, an include of a path below the crate's prefix gives the current contents of the crate's header of that path, if it is a regular file that ends in .h, .hh or .hpp, at most six directories deep, and not in a hidden directory, a nested crate or a marked cache; for all other paths the search goes on in the other include directories. This holds also if the output directory lies in the crate: copies are not copied again. Whatever call fails, no file outside the copy is changed.", "quantifier": "every tree of files, every place of the output directory and every pattern of failing calls", "why_tests_cant": "The copy walks a directory tree while it adds to it; which trees, and in which order a directory lists its entries, is not bounded.", "anchors": ["gen/build/src/lib.rs: best_effort_copy_headers, make_crate_dir"]}
{"id": "C99", "title": "Pointers and vectors of built-in types do what their names say", "statement": "For every built-in type that the bridge accepts in SharedPtr, WeakPtr, UniquePtr, CxxVector, UniquePtr of a CxxVector or Vec, each operation performs, on an object of the C++ (or Rust) type that stands for the element type, the library operation of its name with its own arguments in their order: clone copies the first into the second, upgrade locks the weak pointer, pop moves the last element out before it removes it. Every function that one language declares is defined in the other with as many parameters and with types that fit. For Vec this holds on every platform, whichever fixed-width type size_t, isize or char is there.", "quantifier": "every built-in element type, every operation and its arguments, every platform, every behaviour of the two standard libraries", "why_tests_cant": "The functions exist once per element type and are joined only by the text of their linker symbols; a test calls some of the about four hundred.", "anchors": ["src/cxx.cc: STD_VECTOR_OPS, STD_VECTOR_TRIVIAL_OPS, RUST_VEC_OPS, SHARED_PTR_OPS", "src/shared_ptr.rs: impl_shared_ptr_target", "src/weak_ptr.rs: impl_weak_ptr_target", "src/cxx_vector.rs: impl_vector_element", "src/unique_ptr.rs: UniquePtrTarget", "src/symbols/rust_vec.rs: rust_vec_shims"]}
{"id": "C100", "title": "Rust is only shown memory it may look at", "statement": "Whenever C++ memory becomes a Rust slice (by constructing a rust::String, rust::Str or rust::Slice from a pointer with a length, from a C string, from a std::string or from nothing, by an exception message, by CxxString::as_bytes and as_c_str and by CxxVector::as_slice), the pointer is not null, is aligned, and all the bytes may be read, and they are exactly the characters or elements the caller gave. This holds also of empty input at a null pointer and of an empty vector that has no memory, whether or not assertions are compiled in. With assertions, a null pointer with a length and a misaligned char16_t pointer never reach Rust.", "quantifier": "every memory, address, length and content, every element size and alignment, with and without NDEBUG", "why_tests_cant": "A null or misaligned pointer of an empty slice is undefined behaviour that shows in no output; which standard library gives null for empty vectors differs.", "anchors": ["src/cxx.cc: String::String, String::lossy, Str::Str, Fail::operator()", "include/cxx.h: Slice::Slice", "src/cxx_vector.rs: as_slice", "src/cxx_string.rs: as_bytes, as_c_str"]}
{"id": "C101", "title": "An error about a type that has to be trivial explains how it is used", "statement": "If a C++ type is used in a way for which Rust has to move it, the error of the macro and the static assertion in the generated C++ name each kind of use in the bridge once and no other, with up to three of the structs and functions concerned and with all of them if there are fewer than three. The static assertion carries it as one well formed string literal with the qualified C++ name of the type. Without such a use there is no error.", "quantifier": "every bridge, every type, every number and mixture of uses, every name", "why_tests_cant": "The UI tests show four messages; the wording depends on every combination of seven kinds of use.", "anchors": ["syntax/trivial.rs: as_what, required_trivial_reasons", "syntax/check.rs: check_api_type", "gen/src/write.rs: check_trivial_extern_type"]}
{"id": "C102", "title": "Strings and slices reach the functions of the other language that they declare", "statement": "Every function for strings, slices and error messages that the C++ runtime declares is exported by the Rust runtime exactly once with parameters and a result that fit, and the other way round, without an exception that could pass from C++ into Rust. Each member of rust::String, rust::Str and rust::Slice, and each method of CxxString, that relies on such a function does with its own arguments what its name says: text that is not valid is refused with an exception, assignment to itself changes nothing, a null pointer of length zero is not passed on, and reserving counts from the length or from zero as documented.", "quantifier": "every function of the runtime for strings, slices and errors; every argument; every behaviour of the two standard libraries", "why_tests_cant": "No compiler compares the declarations in C++ and Rust; a test that links still passes when a parameter has another meaning on the other side.", "anchors": ["src/cxx.cc: extern C blocks, String, Str, sliceInit, Fail", "src/symbols/rust_string.rs", "src/symbols/rust_str.rs", "src/symbols/rust_slice.rs", "src/symbols/exception.rs", "src/cxx_string.rs", "src/result.rs: to_c_error"]}
{"id": "C103", "title": "Generated declarations are in the right namespaces and linkage blocks", "statement": "In every generated C++ file all blocks are closed again by their own names, no block is empty, and the declarations after the forward declarations are written in order, each in exactly the blocks it belongs in: types, operators and functions for the user in the namespace of their item, functions that the two languages call of each other in that namespace and extern C, hash specialisations in std, functions of instantiated templates in extern C outside of all namespaces and their members in rust::cxxbridge1, and assertions about imported types outside of all of them.", "quantifier": "every bridge, header or source file, every text of the declarations", "why_tests_cant": "The blocks depend on the sequence of all items of a bridge: a writer that relies on the namespace left by the one before works in tests with one namespace.", "anchors": ["gen/src/write.rs: gen, write_data_structures, write_functions, write_std_specializations, write_struct_operator_decls, write_opaque_type_layout_decls, write_cxx_function_shim, write_rust_function_decl, write_rust_function_shim, write_generic_instantiations", "gen/src/out.rs"]}
{"id": "C104", "title": "Generated headers can be included together", "statement": "Any number of generated headers, with or without rust/cxx.h, can be included in any order in one translation unit, which may itself be a generated source file: after preprocessing no type of the runtime is defined twice, and each file finds all the types of the runtime that it would find if it were alone.", "quantifier": "every sequence of generated headers for every bridge with rust/cxx.h anywhere among them and at most one generated source file, every compiler and platform", "why_tests_cant": "Which copies of a helper survive depends on all the files of the translation unit, their order and which of them copy or include the runtime header.", "anchors": ["gen/src/ifndef.rs", "gen/src/builtin.rs: write", "gen/src/write.rs: gen, pick_includes_and_builtins", "include/cxx.h"]}
{"id": "C105", "title": "Settings are found in cxx-build's search trees", "statement": "However the search trees that hold Cargo's features and settings are shaped, cxx-build finds a feature exactly if a variable of its name is in the environment and a setting with the value of the last variable of its name, where names that differ in the case of ASCII letters only are the same; the comparison is a total order that agrees with equality.", "quantifier": "every sequence of environment variables, every shape the trees can take, every name and query", "why_tests_cant": "A comparison that is not a consistent order loses entries only for particular sets of names in particular trees.", "anchors": ["gen/build/src/cargo.rs: CargoEnv::load, CargoEnvCfgEvaluator::eval, Name, Lookup, CaseAgnosticByte"]}
{"id": "C106", "title": "A translation unit sees the types of all its bridges as Rust does", "statement": "Whatever generated headers and source files, for any number of bridges, make up a translation unit, together with any part of the runtime: no struct, enum or opaque type of a bridge is defined twice, every one of them is defined, and each shared struct has in C++ the fields that it has in Rust, at the same offsets.", "quantifier": "every sequence of generated headers and source files of accepted bridges, in any order and with repetitions, every set of runtime macros defined before, every platform", "why_tests_cant": "Which definition survives depends on all the files of the translation unit and on the names in bridges that know nothing of each other.", "anchors": ["gen/src/write.rs: write_struct, write_enum, write_opaque_type, write_data_structures", "syntax/symbol.rs", "include/cxx.h"]}
{"id": "C107", "title": "The same bridge always generates the same code", "statement": "Running a generator again over the same bridge gives the same code, in C++ and in Rust, although the generators keep their tables in hash maps, whose order differs from one run to the next.", "quantifier": "every accepted bridge, all orders in which two runs visit the entries of their hash tables", "why_tests_cant": "The order of a hash table changes with the random seed of each process; a test sees a few seeds, and equal outputs for them prove nothing about the next one.", "anchors": ["syntax/types.rs: Types::collect", "syntax/map.rs: UnorderedMap", "syntax/set.rs: UnorderedSet", "gen/src/write.rs: gen", "macro/src/expand.rs: expand"]}
{"id": "C108", "title": "Every way of running the generator gives the same code", "statement": "cxx-build, the cxxbridge command and the cxx-gen library make the same C++ out of the same bridge: if they are told the same about the configuration, one generates what the other generates. The exceptions are that cxx-build refuses include paths that begin with a dot, that the command asks for --cfg flags that were not given, and what the options of each are there for. Iterating over an error of cxx-gen gives each problem on its own, in order.", "quantifier": "every file with bridges, every configuration, all sets of --cfg flags and environments of Cargo that say the same, all options", "why_tests_cant": "The three programs evaluate conditions against different sources and pass different options; a test compares them for one bridge and one configuration.", "anchors": ["gen/lib/src/lib.rs: generate_header_and_cc", "gen/lib/src/error.rs: Error::into_iter", "gen/cmd/src/main.rs: try_main", "gen/build/src/lib.rs: generate_bridge", "gen/src/mod.rs: generate, Opt::default"]}
{"id": "C109", "title": "The bridges of a file do not disturb each other", "statement": "A file may contain several bridges; the macro expands each by itself, and the C++ generator reads all of them together. If each is accepted by itself, and no two of them give a type or function the same name, the file is accepted; every function of every bridge is then the same function for the Rust and for the C++ compiler, and so are the instantiations of smart pointers and containers.", "quantifier": "every list of bridges in a file, every function and instantiation of each of them", "why_tests_cant": "What one compiler knows about a type comes from one bridge and what the other knows comes from all of them, so the two can differ on a bridge because of any other one.", "anchors": ["gen/src/mod.rs: generate", "macro/src/expand.rs: bridge", "syntax/types.rs: Types::collect", "syntax/check.rs: typecheck"]}
{"id": "C110", "title": "Both programs reject the same bridges for the same reasons", "statement": "A bridge that the macro accepts is accepted by the C++ generator, and the other way around, except for lifetimes called 'static, about which the macro leaves the complaint to the Rust compiler. For a bridge that is rejected, both report the same problems in the same order.", "quantifier": "every list of items of a bridge", "why_tests_cant": "The two run the same checks at different times with different settings; a test shows the messages of one of them for one bridge.", "anchors": ["syntax/check.rs: typecheck, check_reserved_lifetime, Generator", "gen/src/mod.rs: generate", "macro/src/expand.rs: bridge"]}
{"id": "C111", "title": "Another bridge in the file changes nothing for a bridge", "statement": "What the C++ generator writes for the types and functions of a bridge is the same whether the bridge is alone in its file or beside others that give no type the same name. A call through code made from the bridge by the macro and from the whole file by the C++ generator hands over every argument and the return value, and destroys each once.", "quantifier": "every list of bridges in a file, every function and type of each of them, every list of arguments and every return value", "why_tests_cant": "Whether a value is passed by pointer or by value is decided on the two sides from different sets of items, and there is no bound on what the other bridges contain.", "anchors": ["gen/src/mod.rs: generate", "gen/src/write.rs: write_cxx_function_shim, write_rust_function_decl_impl, write_rust_function_shim_decl, write_type", "macro/src/expand.rs: expand_cxx_function_shim, expand_rust_function_shim_impl", "syntax/types.rs: needs_indirect_abi"]}
{"id": "C112", "title": "Names in the generated C++ are names of C++", "statement": "Every name that the C++ generator takes from an accepted bridge and writes (types, namespaces, fields, variants, functions, arguments, linker symbols, local variables, include guards) is an identifier of C++ and not one of its reserved words, at least after names for C++ have been chosen with cxx_name where the Rust name is none.", "quantifier": "every accepted bridge, every item in it and every name of it", "why_tests_cant": "The names come from the user and are combined in a dozen ways; a test shows the combinations of some names.", "anchors": ["gen/src/write.rs: write_struct, write_enum, write_cxx_function_shim, write_rust_function_shim_impl, write_opaque_type, write_generic_instantiations", "syntax/mangle.rs: extern_fn, operator, c_trampoline, r_trampoline", "syntax/parse.rs: pair", "syntax/symbol.rs: join", "syntax/names.rs: ForeignName::parse"]}
{"id": "C113", "title": "An error about a use by value says what the type is", "statement": "If no name in a bridge has two meanings, an error that a type cannot be used, passed or returned by value is reported for exactly those fields, arguments and results whose type is an opaque type of C++ or Rust, a C++ string or vector, the unit type or an array of something that has no size, and the message says which of these it is.", "quantifier": "every bridge in which names have one meaning, every item and every field, argument and result in it", "why_tests_cant": "The message depends on what the name stands for anywhere in the bridge and on all other uses of it.", "anchors": ["syntax/check.rs: describe, is_unsized, check_api_struct, check_api_fn"]}
{"id": "C114", "title": "Generators do not panic on accepted bridges", "statement": "Once a bridge has been accepted, neither the macro nor the C++ generator panics while it writes code: every name that is looked up is found, every type can be printed, every linker symbol and every identifier can be made, and no derive arrives that they do not know.", "quantifier": "every accepted bridge", "why_tests_cant": "A panic needs one combination of item, name, type and derive that nobody thought of; a test shows that some bridges are generated.", "anchors": ["macro/src/expand.rs: expand, type_id, expand_struct, expand_struct_operators, expand_enum, expand_cxx_type, expand_cxx_function_shim, expand_function_pointer_trampoline, expand_rust_type_layout, expand_rust_function_shim, expand_type_alias_verify", "macro/src/derive.rs: expand_struct, expand_enum", "syntax/resolve.rs: Types::resolve", "syntax/symbol.rs: Symbol::push, join", "gen/src/write.rs: write_type, gen"]}
{"id": "C115", "title": "C++ steps through Rust arrays as Rust does", "statement": "For every element type T of a slice or Vec in the bridge, opaque Rust types included, rust::size_of<T>() and rust::align_of<T>() in C++ give the size and the alignment T has in Rust. So indexing a rust::Slice or rust::Vec in C++ reaches the element that Rust stored there, emplace_back constructs behind the last element, and an empty slice made in C++ is aligned for T.", "quantifier": "every accepted bridge, every element type of its slices and vectors, every platform, array and index", "why_tests_cant": "A wrong stride needs a type whose layout differs from what C++ assumes; a test with a few structs and one opaque type does not show that the right function is called for every type and that its symbol cannot lead to another function.", "anchors": ["include/cxx.h: Opaque, layout, size_of, align_of, Slice::operator[], Vec::operator[], Vec::emplace_back", "macro/src/expand.rs: expand_rust_type_layout", "gen/src/write.rs: write_opaque_type, write_opaque_type_layout", "syntax/check.rs: check_type_slice_ref, check_type_rust_vec"]}
{"id": "C116", "title": "The expansion respects unsafe", "statement": "A user's Rust function that is an unsafe fn is accepted in a bridge only if the bridge declares it unsafe; otherwise the expansion does not compile. Beyond that the generated Rust code obeys the rules about unsafe: unsafe operations are inside unsafe blocks, no unsafe function is handed to something that calls it as a safe one, and no block is unsafe for nothing.", "quantifier": "every bridge, every function of its expansion, whichever of the user's functions are unsafe", "why_tests_cant": "Whether a generated function needs an unsafe block depends on the combination of its arguments, its result, whether it throws and how it is declared; compile tests cover a few of the combinations.", "anchors": ["macro/src/expand.rs: expand_cxx_function_shim, expand_rust_function_shim_impl, expand_rust_function_shim_super, expand_function_pointer_trampoline, expand_rust_box, expand_rust_vec, expand_unique_ptr, expand_shared_ptr, expand_weak_ptr, expand_cxx_vector, expand_struct_operators", "src/unwind.rs: prevent_unwind"]}
{"id": "C117", "title": "The types of the runtime have one layout", "statement": "If the crate, cxx.cc and the code generated for a bridge compile on a platform, then the types that the runtime hands over have the same size and alignment in Rust and in C++: String and rust::String, Vec<T> and rust::Vec<T>, &str and rust::Str, slices and rust::Slice<T>, Box<T> and rust::Box<T>, UniquePtr, SharedPtr and WeakPtr and the smart pointers of std, usize and size_t, isize and rust::isize, function pointers and rust::Fn, the result of a fallible function and what C++ reads it as, with their members at the same offsets. A std::string fits into the space set aside on Rust's stack. Types that stand for C++ objects of unknown size cover no byte and need no alignment in Rust.", "quantifier": "every layout of the primitive types and of the types of both standard libraries that passes the compile-time checks, every type argument, every bridge", "why_tests_cant": "Tests run on a few platforms with the standard libraries of the day; that the compile-time checks are enough for all others is a statement about all layouts that pass them.", "anchors": ["src/macros/assert.rs: const_assert_eq", "src/rust_string.rs: RustString", "src/rust_vec.rs: RustVec", "src/rust_str.rs: RustStr", "src/rust_slice.rs: RustSlice", "src/unique_ptr.rs: UniquePtr", "src/shared_ptr.rs: SharedPtr", "src/weak_ptr.rs: WeakPtr", "src/cxx_string.rs: StackString, CxxString", "src/cxx_vector.rs: CxxVector", "src/opaque.rs: Opaque", "src/result.rs: PtrLen, Result", "src/function.rs: FatFunction", "src/symbols/rust_vec.rs: rust_vec_shims", "src/cxx.cc: static_assert, SHARED_PTR_OPS", "include/cxx.h: String, Str, Slice, Box, Vec, Fn", "gen/src/write.rs: write_unique_ptr_common, write_shared_ptr, write_weak_ptr"]}
{"id": "C118", "title": "Values that Rust may put into smart pointers and vectors have code for it", "statement": "UniquePtr::new, SharedPtr::new, CxxVector::push and CxxVector::pop never panic for want of an implementation: wherever Rust's type system lets them be used with a type for which a bridge that is accepted and compiles, or the runtime itself, provides the smart pointer or vector, the method behind them is implemented for that type. It is left out just for the opaque C++ types of the bridge, with which these operations do not compile.", "quantifier": "every accepted bridge whose expansion compiles, every type argument, every environment of other bridges and hand-written ExternType impls, every builtin type", "why_tests_cant": "Whether the default method can be reached depends on what kind of type each generated or hand-written impl declares and on which methods are generated for it; tests exercise some pairs of type and operation.", "anchors": ["src/unique_ptr.rs: UniquePtr::new, UniquePtrTarget::__new", "src/shared_ptr.rs: SharedPtr::new, SharedPtrTarget::__new, impl_shared_ptr_target", "src/cxx_vector.rs: CxxVector::push, CxxVector::pop, VectorElement, impl_vector_element, vector_element_by_value_methods", "src/extern_type.rs: impl_extern_type", "macro/src/expand.rs: expand_unique_ptr, expand_shared_ptr, expand_cxx_vector, expand_cxx_type", "syntax/check.rs: check_type_unique_ptr, check_type_shared_ptr, check_type_cxx_vector"]}
{"id": "C119", "title": "The bridges of a program generate each supporting function once", "statement": "However many bridges a program has, in one crate or in several, and whatever types they share: if each bridge is accepted, Rust accepts the impls in their expansions, and different types have different qualified names in C++, then no two supporting functions have the same symbol. Supporting functions are those of boxes, vectors and smart pointers of the types of the bridges, derived operators, and the sizes of opaque Rust types. A type that is used in several bridges thus leads to an error of the Rust compiler, and never to two definitions of a function. A function that a bridge declares never has the symbol of a supporting function of any bridge, and shares its symbol with a function of another bridge only if namespace, Rust name and C++ name of the class are the same.", "quantifier": "every set of bridges, every way in which their types are the same or different", "why_tests_cant": "Tests link a few programs; that the impls in the expansions catch every possible double definition ranges over all sets of bridges.", "anchors": ["src/rust_type.rs: RustType, ImplBox, ImplVec", "macro/src/expand.rs: expand, expand_struct_operators, expand_rust_type_impl, expand_rust_type_layout, expand_rust_box, expand_rust_vec, expand_unique_ptr, expand_shared_ptr, expand_weak_ptr, expand_cxx_vector", "syntax/mangle.rs: operator"]}
{"id": "C120", "title": "The supporting functions of smart pointers and vectors are there", "statement": "Whatever bridges a program has: if each is accepted and Rust accepts the program, then for every UniquePtr, SharedPtr or WeakPtr to a type of a bridge, every UniquePtr to a CxxVector of such a type, and every Box, Vec or CxxVector of a type that the bridge itself declares, at any depth of any type in any bridge, each function that it needs has exactly one definition in the whole program, under the symbol that this bridge calls it by.", "quantifier": "every set of bridges, every type in them at any depth, every way in which bridges share types", "why_tests_cant": "Tests link a few programs; which instantiations are generated depends on all types of all bridges and on who declares them.", "anchors": ["syntax/types.rs: Types::collect (impls)", "syntax/instantiate.rs: Type::impl_key", "syntax/visit.rs: visit_type", "macro/src/expand.rs: expand", "src/unique_ptr.rs: UniquePtr, UniquePtrTarget for CxxVector", "src/shared_ptr.rs: SharedPtr", "src/weak_ptr.rs: WeakPtr"]}
