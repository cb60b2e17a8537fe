# Formal model of dtolnay/cxx in Lean 4

## Trusted base

* Lean 4.33.0's kernel.
* Axioms: every property theorem depends on at most `propext`, `Classical.choice` and `Quot.sound`; the section
  "Axioms" lists them per theorem.  No axioms are added; no `sorry`, `admit`, `native_decide` or `bv_decide`.
* The transcription of the Rust and C++ sources into Lean definitions.  It was made by reading; each definition cites
  the file and lines it models and states its simplifications.  The section "Modelled code" lists the lines.
* Two pieces of the model are data copied by script instead of by hand: the text of `include/cxx.h`, cut into lines
  in `Verif/Header`, and the pieces of text written by `gen/src/write.rs` and `gen/src/builtin.rs` in `Verif/Preamble`.
  The macros `b!"..."` and `w!"..."` turn a literal into the list of its lines or words when the file is elaborated;
  what the kernel sees is the list.
* External code which cxx calls and does not contain is represented by small explicit models or by parameters with
  stated assumptions:
  - Rust's `str::from_utf8`, `String`, `Vec`, `Box`, `BTreeSet`, hash maps (any iteration order), `Path::components`,
    `RwLock` and thread-locals behind `CFG`, the allocator behind the interner;
  - C++'s `std::string`, `std::unique_ptr`, `std::shared_ptr`/`std::weak_ptr`, `std::vector`, exceptions;
  - a Unix file system with symbolic links, whose calls may fail at any point (`Verif/Build/WriteModel.lean`);
  - Cargo's `DEP_*`, `CARGO_CFG_*` and `CARGO_FEATURE_*` variables;
  - `syn` and `proc_macro2`: the models start from token trees, item trees or the parsed bridge;
  - the two compilers and the linker: a declaration is what its text says, a symbol is its name.

The transcription was compared with recorded behaviour of the real program where the repository contains some
(these are tests of the model, not proofs):

* `Verif/Check/Ui.lean` and `Verif/Parse/Ui.lean`: the model reports the errors recorded in `tests/ui/*.stderr`.
* `Verif/Parse/Ffi.lean`: the bridges of `tests/ffi` and of the demo, which the project compiles and links, parse and
  pass the checks in the model; the pointer that each of their 149 C++ functions is bound to has the type with which
  `tests.h`, `tests.cc` or `blobstore.h` declares the function; the line that `tests/cxx_gen.rs` looks for is printed.

## Layout

* `lean/Verif/<Area>/*Model.lean` – the model (definitions only, with citations).
* `lean/Verif/<Area>/*Spec.lean` – the small independent specification, which uses none of the model's helpers.
* `lean/Verif/<Area>/*Lemmas.lean` – helper lemmas.
* `lean/Verif/<Area>/*Props.lean` – the property theorems and, beside each, a concrete non-trivial instance (`example`)
  meeting its hypotheses.
* `seeded/LOG.jsonl` – wrong programs tried against the theorems.

Small areas put these parts in one file with section headers.

## Plan per property

| id | what is modelled | how it is proved |
|----|------------------|------------------|
| C01 | UTF-8 validator, UTF-16 decoder, the constructors of `rust::String`/`rust::Str` as functions into `Except` | validator ⇔ "is a concatenation of scalar encodings", by strong induction on length |
| C02 | heap + object-table state machine of `rust::String` members | invariant by induction over operation lists |
| C03 | `c_str` on a (buffer, len, cap) state | direct, all states |
| C04 | `lossy::display` loop over the validator's `Utf8Error`; once more with each call of a writer that may fail, and slices that may panic | against an independent lossy specification, strong induction |
| C05 | `lossy::debug` loop, char escaping as a parameter; once more with each call of a writer that may fail, and slices that may panic | output = quote ++ per-chunk escapes ++ quote, plus chunks concatenate to the input |
| C06 | the six operators on byte lists with a sign flag for `char`; `rust::Str` and `rust::String` objects over a memory of bytes, their iterators and `<<` | order laws by induction; negation witness for signed char against Rust's order |
| C07 | pointer/stride iterator | arithmetic |
| C08 | allocation table machine | invariant over histories |
| C09 | buffer/len/cap machine with element identities; `emplace_back` reads its argument after reserving | refinement to a list; counterexample for an argument aliasing the vector |
| C10 | message-buffer machine | invariant over histories |
| C11 | `try`, `exception`, `trycatch`, both shims | all outcomes |
| C12 | call trees with panics and a guard | induction over call trees |
| C13 | byte-string machine | refinement over histories |
| C14 | scope-exit semantics of the macro expansion | negation for abnormal value expressions, partial for normal ones |
| C15 | vector machine | refinement over histories |
| C16 | control-block machine with counts | invariant over histories |
| C17 | owner machine | invariant over histories |
| C18 | the tables on both sides and the checker predicate | whole finite table |
| C19, C20 | `DiscriminantSet` | invariant over variant lists, specification over `Int` |
| C21 | `toposort` DFS on arbitrary graphs | post-order invariant; negation for array fields |
| C22 | `Type` equality and hash | induction on types; negation for `Ptr`/`Array` |
| C23 | `OrderedSet`, `OrderedMap` | refinement over insertions |
| C24 | mangling as `$`-joined segments | injectivity by splitting |
| C25 | `type_id::expand` | injectivity |
| C26, C27 | `try_eval`, evaluators | against Kleene semantics over all completions |
| C28 | `Content` with pending blocks | invariant relating output to the logical block stack |
| C29 | `sort_by_inner_namespace`, `Api::namespace`, `write_forward_declarations` with its texts | induction on fuel/length; for a bridge, item by item |
| C30 | include writer as a token list | structural |
| C31 | builtin flag propagation | all flag records (finite, kernel decided case split by implication) |
| C32 | both signature lowerings | induction over argument lists, case analysis over types |
| C33 | operator tables and semantics | all derive sets, all lawful orders |
| C34–C37 | checker predicates over a model AST | soundness by induction |
| C38 | fixpoint loop | least fixpoint, independence of order |
| C39 | ownership events of both shims | induction over arguments |
| C40, C41 | path components | induction |
| C42 | file system state | all states |
| C43, C44 | metadata encoding, header directory selection | round trip through the printed lines, negation for texts that do not fit a line; negation for overlapping prefixes |
| C45 | handle machine with threads | negation for interleavings, partial for sequential use |
| C46 | interner | invariant over histories |
| C47 | qualified-name printer/parser, namespace inheritance | round trip |
| C48 | derived comparison bodies | order laws by induction on fields |
| C49 | phase pipeline | direct |
| C50 | line scanner | direct |
| C51 | name lookup over checked bridges | induction over types; every instantiation is checked |
| C52 | instantiation symbols of both sides | case analysis over the instantiation kinds |
| C53 | the include guards of instantiations | injectivity |
| C54 | the runtime's symbols next to the mangled ones | disjointness by segments; the names that clash in the root namespace, listed, with witnesses |
| C55 | `is_guaranteed_pod` with fuel | exactness by induction; divergence witness for arrays |
| C56 | the writer's `unreachable!()` arms | totality over accepted bridges; witness for `fn(())` |
| C57 | the text written per item as a token list, the flags set on the way | structural |
| C58 | derives of both sides | all derive sets |
| C59 | hash forwarding | direct |
| C60 | return values through `MaybeUninit` | all outcomes |
| C61 | scripts interleaving on a shared file system | invariant over interleavings |
| C62 | the command: plan, generate, write in order | all argument lists |
| C63 | item trees with attributes | induction over the tree |
| C64 | `parse_type` from syn types, `ToTokens for Type` back to syn types | induction over types; a separate meaning of types on both sides |
| C65 | the loop over attributes, with syn attributes as input | induction over the list; one lemma per kind of attribute |
| C66 | all of `parse_items`, with the items of syn as input | soundness and completeness for each kind of item against separate relations; lists by induction |
| C67 | as C66 | from C66 by cases |
| C68 | as C66, with `Check.Accepted` | from C66: the only type that a block declares |
| C69 | the loop over arguments | decimal numerals are injective; the clash is a witness |
| C70 | `write_doc`, `Doc::to_string`, `str::lines` | a C++ comment scanner as specification; its state after each line by induction |
| C71 | `expand_struct`, `expand_enum`, `write_data_structures` and what it calls, with include guards; C layout rules on an arbitrary machine as specification | induction on the derivation of the layout in either language, over `Abi.write_agrees` |
| C72 | `Display`/`ToTokens` for discriminants, constants and enumerators, `check_enum`; the meaning of integer literals in both languages as specification | from the values and ranges of C19 and C20; decimal digits of a number by induction |
| C73 | both generated functions of every call, with the names of their parameters, local variables and symbols; binding, shadowing, redeclaration and linking as specification | symbols of all definitions differ (C22) so linking finds the right one; environments by induction on the declarations |
| C74 | the assertions of the expansion and of the generated C++ about types of the user; trait resolution of the assertions as specification | the recorded reasons are exactly the uses that move a value, from the checks of C34 and C35; type ids by C25 |
| C75 | Send and Sync of the library's types by the rules for auto traits and the unsafe impls; programs of several threads that make, move, lend, clone, read, write and drop values | an invariant over all runs: which thread may own what and point to which control block, and that every object has one owner; the traits by induction on the type |
| C76 | the chain of operations that each shim applies to each argument and result, in Rust and C++, with the types that are printed in them; the signatures of the operations as specification | cases on the type; what may be inside Box, UniquePtr and Vec from the checks (C34), copies by C32 |
| C77 | the functions and their callers of every instantiation, in both languages, as programs over uninterpreted library operations, joined by symbol | symbols determine the member (C24), so each links to its own function; then the composed programs are compared |
| C78 | the list of declarations of the generated header and source file, with the types each mentions, holds by value and the functions it calls | a predicate on (what was before, declaration) that is kept when more comes before; the loops of the generator one by one; order of structs from C04; totality from the checks |
| C79 | the same list; class definitions with fields, members and inner classes; members that are defined and whose address is taken | the class of each name is unique (C27 for names); members of a class are the methods of its type; pairwise different methods |
| C80 | the declarations of header and source file (C78); the documented C++ type of a Rust type as an inductive relation | the loops one by one; induction on types; the class of a receiver by the uniqueness of names |
| C81 | source text as characters with byte offsets, where a slice off a character boundary is a panic; the loops over newlines and columns; stable sort; the table of hints; the #! line | induction on the number of lines; a place in a text is settled by line and column; sortedness, permutation and stability of insertion |
| C82 | the walk over clang's tree with the stack of namespaces and the enum being filled; specification: translation units as C++ sees them, the tree clang dumps for them, values of enumerators by the rules of C++ | the walk is a fold over the declarations of enums (induction on trees); invariant over the declarations seen so far; induction on enumerators |
| C83 | the text of types, declarations and pointers, character by character; specification: a C++ lexer and a reader for types and declarations, the documented table from Rust types to C++ types | the lexer inverts the text (induction on types with an invariant for the character that follows), the reader inverts the tokens (fuel bounded by the length of the text), and the table is met by induction on the Rust type |
| C84 | the signatures that the macro prints, as syn reads them: the function for the user, the extern declaration inside, the exported function and the one inside it that calls the user's function; specification: a signature as a declaration (name, unsafety, lifetimes, types as in C64) and Rust's rules for elided lifetimes | the printed types mean what was parsed (C64); receivers by cases, `Self` through the only type of the block (C68), missing lifetimes through the declaration that resolves the name (C51); the extern types have no lifetime that the declared ones lack (induction on types) |
| C85 | all checks of `syntax/check.rs`, `ident.rs` and `trivial.rs` over the tables of `Types::collect`; specification: inductive rules over the items as written (what a name stands for, which uses move a value, which types are unsized, what may be borrowed from) | each table is characterised by the items (C37, C51), `required_trivial` by the uses; then each check is equivalent to its rule, by cases; the rule for mutable results needs that the names in the arguments are declared, which the rule for types gives in both directions |
| C86 | the conversions of `src/rust_{string,vec,slice,str}.rs` over words, with the layouts as parameters, a heap of allocations in which a wrong `free` is an error, and programs as lists of operations; specification: the values of a program without memory (a conversion changes the type only) and which allocations a value owns | invariant: the heap is a permutation of what the values own, with distinct pointers; conversions change neither contents nor owned allocations, drops free exactly them; induction on the program |
| C87 | the Rust signatures of C84 and the C++ lines of C83, with the trampolines of function pointers added; specification: what a reader of each language sees (`Den`, `CType`), when a Rust type and a C++ type are the same data (`Same`), and which C++ types are passed as in C (`AsInC`) | by type: both generators' types are read and related case by case, by induction on the type where it is written inside another; then argument by argument.  The hypothesis about `&str` is an invariant of the parser, by induction on the type that is parsed |
| C88 | the output of the parser (C69) with its conditions; `stripped`: the C++ generator's `strip` (C09); `pieces`: the items of the expanded module with the attributes in front of them and the types they name; specification: rustc keeps a piece if all conditions among its attributes hold | the conditions that are printed are the ones that were read, by cases over the item; functions, fields and variants follow.  With all types switched on, what both generators know of types is the same (`SameTypes`), hence C87 and C51 carry over |
| C89 | a machine of the call stack with frames of both languages, try blocks with a type, the generated functions with their `noexcept` and `Result` flags, `trycatch` as a parameter; heads of all support functions as text with blanks; specification: `Lands`, where an exception ends on a stack, and `IsEntry`/`IsWrapper`, whose flags are read from the generated lines with the C++ reader of C83 | invariant of the stacks that can be reached; `Lands` is functional; flags by C83's theorems and by a look at the last piece of every head |
| C90 | `items`: all names that the expansion defines, each with its scope (module, hidden block, methods of a type) and namespace (types, values); specification: `Distinct`, what authors have to keep apart, in terms of the names they write; `lookup` through nested scopes | names of the hidden block are taken apart again (`render_inj`): the first doubled underscore ends the type; the rest from C37's and C85's theorems on definitions |
| C91 | the trait impls of the pointers as `Option` of the target read from a memory, the target's own impls being a parameter; specification: the laws as documented in `core::cmp` and `core::hash` | each law by cases on null; for strings induction over the bytes |
| C92 | each method of `Read`, `Seek` and `Write` on `UniquePtr` as a function of the target's methods, including those left to the defaults of std; `Write` for C++ strings with the default `write_all` loop | simulation between histories; the default loops by induction |
| C93 | `parseInclude` over Rust tokens, the escaping and the line of C30's model; specification: the header name a C++ preprocessor reads from a line ([lex.header]) | the escape of a character is that character exactly if it is plain; lengths otherwise; induction over tokens |
| C94 | the whole of `build` as the list of its calls into `out.rs`, run on the file system of C42; specification: a path is walked through links, and the first `-I` directory that has the file wins | the effect of each call on all places (invariant over its system calls), frames over lists of calls, places of different calls are apart |
| C95 | the calls of C94 on paths: each system call walks the links on its path anew; specification: `Spares`, all places outside of the two directories have the same entry, and files there the same bytes | invariant over all system calls: links among generated files lead to generated files or to files elsewhere, so that each path ends in the two directories or below a file, where nothing can be made |
| C96 | `find_target_dir` on the components of paths, with `Path::exists` as a function, and as a function of the file system of C94; specification: `Nearest`, the nearest marked path above | induction over the rounds of the search; the entries that are looked for are outside of what a build may change (C95) |
| C97 | every item of the expansion with its lifetime parameters and the types in it, by `expand`, `split_for_impl`, `to_underscore_lifetimes` and the derives; specification: Rust's rules for lifetimes in three kinds of places (`Fine`), and the same for what the user wrote (`Right`) | induction over types for printing and for the types of declarations; case analysis over items; instantiations resolve by C15's lemmas |
| C98 | `best_effort_copy_headers` over the file system of C94, with an oracle for every call; specification: `OwnHeader`, a header of the crate by its path alone, and the `#include` of C94 | invariant `Kept` over all steps for what is not changed; induction over the depth and the entries for completeness, the listing of a directory being read while copies are added |
| C99 | the macros of `cxx.cc` and of the Rust crate over the tables of C18 and the machine of C77; specification: `Stands`, the table of built-in types in both languages, and when two declarations fit | rows of the tables by case analysis on all element types and platforms; symbols pairwise different by computation over the whole table; each operation by unfolding one linked call |
| C100 | the pointer and length each constructor and view hands over, over a memory of readable bytes, with `strlen` as a loop; specification: the documented requirements of `slice::from_raw_parts` and of C++ arrays, C strings, `std::string` and `std::vector` | case analysis on null and empty; induction on the count of `strlen` |
| C101 | `as_what` with its loop over reasons, clauses and text, and the two messages around it; specification: uses in the bridge, phrases with their truth and a list of phrases in English | each reason is recorded exactly for the use it stands for; the loop as filters; induction on the lists of clauses and names; the four messages of tests/ui come out as in the .stderr files |
| C102 | the functions with C linkage for strings, slices and errors in both languages with their declarations, a linker, and the members that call them, over any library; specification: which types fit | lookup in tables without repeated symbols; each member unfolded to library operations for every library and every argument |
| C103 | the writers of gen/src/write.rs as sequences of calls on the output, with arbitrary texts; specification: the blocks around each declaration, the declarations of the file (C78) and properly nested output (C28) | each writer is nested from any namespace left by the one before; sequences append; then the theorem of C28 |
| C104 | the helpers of a generated file (C31, C57) and include/cxx.h (C50) as lines; specification: a preprocessor over lines, with arbitrary outcomes of the conditions about compiler and platform, and a reader of type definitions | each piece is evaluated by the kernel under all outcomes of its own conditions; induction over files with the invariant that the types of a section are there, once, if and only if its macro is defined; headers ask for helpers with guards only |
| C105 | the comparisons of cargo.rs on the UTF-8 bytes of names; std's BTreeSet and BTreeMap as search trees whose form may change at each insertion; specification as for C27: variables whose names differ in case at most | cmp is a lexicographic order on lower-case bytes, which determine the lower-case characters; a search in a sorted tree is a search among its entries, insertion keeps them sorted; induction over the variables |
| C106 | the guarded definitions of C71 for any number of bridges, one file after the other; specification: a preprocessor over guarded definitions, the layout rules of C71 over what is left | guards determine type and kind across bridges (C53) and are no macros of include/cxx.h (evaluated by the kernel); layouts in a consistent unit are determined, and those of one bridge are those of the unit, by induction on the derivation in both directions |
| C107 | the models of both generators (C28, C31, C73, C76, C83, C84, C97, C103) over a context computed by a run; specification: a run is an arbitrary choice of the order of each walk through a hash table | the fixed point of the only walk does not depend on the order (C38); every model function depends on the context only through its answers |
| C108 | the options with which cxx-gen, the command and cxx-build call `generate` (C49), over the evaluators of C27; specification: evaluators that do not contradict each other, or of which one knows more | settled conditions stay settled when more is known; the conditions that are needed are then the same, and so are the items that are left |
| C109 | the same definitions as for C32, C52 and C87, the Rust side for one bridge and the C++ side for the concatenation of all; specification: no name is given to a type in two bridges | the names that an accepted bridge uses are its own or builtin (C51), so improper and plain types (C38, C55), resolutions and the rules of C85 are the same for the bridge and the file; then C87 and C52 for the file |
| C110 | the checks of C85 with either setting of `Generator`; specification: the lifetimes an item introduces | each check is the same up to one complaint; acceptance from the rules of C85 |
| C111 | the lines of C83 and the calls of C39 and C60, for a bridge by itself and for the concatenation of all of the file | as C109: every question asked about a type of the bridge has the same answer in both contexts; then C39 and C60 for the bridge |
| C112 | the names from the bridge in the C++ output, per item, with the symbols of C01 | symbols are segments joined by `$`: they are identifiers if the segments are and have `#` in them if one has; segments are names of the item or of types of the bridge (C51) |
| C113 | `describe` and the messages with what it returns | the rules of C85 say when there is an error; the definitions of the name decide the description |
| C114 | every place of `expand` and of its callees that can panic, per function, as a Boolean; for C++ the model of C78, where a panic is `none` | each place by the rule of C85, by C51 (names resolve) or by C24 (symbols exist); printing a type prints its parts, so `()` in a function pointer always reaches `unreachable!()` |
| C115 | the overloads of `do_size_of` and `do_align_of`, the base class and the `layout` functions of opaque types in the generated file, the exported functions of `expand_rust_type_layout` among all symbols of the bridge, a linker; `sizeof` and Rust's layouts are the relations of C71 | element types by the rules of C85 are sized or opaque Rust types; the former by C71, the latter because symbols determine what they belong to (C24) and Rust types are declared once |
| C116 | the bodies of all functions of the expansion as expressions with calls, dereferences, `unsafe` blocks, closures and functions as values; which library functions are `unsafe` is in the specification; types, borrows and macros inside are left out | each template by its expression; the shims by cases on arguments, result and `Result`, with `requires_unsafe` and `requires_closure` compared to what the expression needs |
| C117 | the definitions of the runtime's types in both languages as type expressions, the compile-time checks as lists of sizes to compare; sizes and alignments of primitive and standard library types are variables | the layout rules of C applied to one and two members; each check gives an equation, and words cannot be counted in two ways |
| C118 | the four operations, the trait method each calls, and the tables of what the runtime implements for builtin types; on top of the generated methods of C77 and the generated assertions of C74 | the argument of an accepted instantiation is a shared type, an alias or an opaque C++ type; the last has an ExternType impl that says Opaque; the builtin tables are finite |
| C119 | the impls in the expansion of a bridge with the functions beside each, over the model of symbols of C24; a program is a list of bridges with a meaning for each name | a symbol determines trait and C++ name of the type, across bridges; so two equal symbols give two equal impls, which Rust rejects |
| C120 | as C119, with the bounds that Rust puts on the types in smart pointers | the instantiations of a bridge are exactly those of its types that are no aliases; for an alias the bound gives the bridge that has the impl, whose symbols are the same because the type ids are checked (C25, C74); once by C119 |

## Results per property

The exact theorem names are in `MANIFEST.json`; "partial" means that the code does not have the property as stated
and that the negation is proved by a witness next to the part that does hold.

| id | property | status | note |
|----|----------|--------|------|
| C01 | UTF-8 gate of rust::String and rust::Str | proved | Bytes are naturals; the validator of core::str is modelled and proved to decide well-formedness. Allocation failure is not modelled. |
| C02 | rust::String stays well-formed over every history | proved | All members except the mutable begin()/end(), through which C++ can write arbitrary bytes. Buffers are modelled with explicit allocation, growth policy is arbitrary, allocation failure is not modelled. |
| C03 | rust::String::c_str is a NUL-terminated view | proved | For every reachable state. |
| C04 | Display of a C++ string equals from_utf8_lossy | proved | display_to is for any writer, also one that fails. |
| C05 | Debug of a C++ string loses no byte | proved | Unicode tables used by char::escape_debug are parameters. debug_to is for any writer, also one that fails. |
| C06 | rust::Str comparison operators form one consistent order | proved | Both signednesses of char; on signed char the order is not Rust's (str_order_signed_differs). |
| C07 | rust::Slice bounds and iterator arithmetic | partial | Iterator laws proved for elements of positive size; for opaque Rust types of size zero iteration visits nothing (slice_zero_size). |
| C08 | rust::Box owns its object exactly once | proved | Heap with explicit allocation and object identity, C++ boxes, raw pointers and Rust boxes. Allocation failure is not modelled. |
| C09 | rust::Vec behaves as a sequence | partial | All histories except pushing an element of the vector itself (reads freed memory exactly when it reallocates, vec_push_own_element) and copy assignment whose element copy throws (leaves a destroyed object in place, vec_copy_assign_throw). |
| C10 | rust::Error messages survive copies | partial | All histories, except that C++ does not throw a moved-from error into Rust. what() of a moved-from error is a null pointer, not an empty string (error_moved_from_what_null). |
| C100 | Rust is only shown memory it may look at | proved | What the caller has to give (a readable aligned array, or null and 0; a terminated C string) is the precondition of the C++ functions; without assertions a null pointer with a length is passed on. That memory stays as it is while Rust looks at it is the caller's duty. |
| C101 | An error about a type that has to be trivial explains how it is used | proved | For assertion_explains the names are identifiers: no quotes, backslashes or colons. Uses in the arguments of function pointers are no uses in this sense (see C74). |
| C102 | Strings and slices reach the functions of the other language that they declare | proved | For the runtime with the feature alloc; missing_without_alloc shows what does not link without it. What comes of the operations is in C01, C02, C03, C86 and C100. |
| C103 | Generated declarations are in the right namespaces and linkage blocks | proved | For all texts of the parts; the declarations are those of C78 to C80, the blocks of the output those of C28. Forward declarations have their namespaces as text (C29). The blocks of the builtins are in C31. |
| C104 | Generated headers can be included together | proved | For the text of include/cxx.h and of all helpers; the types of the bridges themselves have guards of their own (C53). Two source files in one translation unit clash (two_sources_clash), which is why one at most is allowed. |
| C105 | Settings are found in cxx-build's search trees | proved | std's B-tree is modelled as a search tree that may take any form with the same entries after each insertion. |
| C106 | A translation unit sees the types of all its bridges as Rust does | partial | Definitions: proved for all bridges. Layout: false where two bridges define different structs of the same name in C++, since the first header suppresses the definition of the second (definition_suppressed); proved where bridges that define the same name define it alike. As in C71, the types of one bridge have different names in C++. |
| C107 | The same bridge always generates the same code | proved | UnorderedMap and UnorderedSet offer no iteration other than retain, which one function uses; the model of that function takes the order of every walk as a parameter. The texts that only depend on a declaration are parameters. |
| C108 | Every way of running the generator gives the same code | proved | The writer is any function of its options and of the items. Flags and environment say the same if the flags are true of the environment and list all values of the settings they mention (Truthful). |
| C109 | The bridges of a file do not disturb each other | partial | Proved for bridges that are apart. An accepted file whose bridges are not has a struct or enum in one that is a type of C++ in another (apart_or_halved); the two compilers may then disagree (halved_disagrees). Acceptance is also lost if an alias has the name of a builtin type (alias_disturbs). Function pointers as in C87. |
| C11 | Result and exception crossing is faithful | partial | All histories except throwing a moved-from rust::Error through the bridge, which calls strlen on null (moved_from_error_thrown). Default trycatch; exceptions of other types and other trycatch functions are in C89. |
| C110 | Both programs reject the same bridges for the same reasons | proved | About the checks behind the parser. The parser is the same function in both programs; include paths and #[cfg] are C30 and C88. |
| C111 | Another bridge in the file changes nothing for a bridge | partial | Proved for bridges that are apart, as C109; halved_changes shows that a name shared by two bridges changes what is written. The lines are those of C83 (declarations, pointers, heads of functions and trampolines), not whole files. Calls and returns as in C39 and C60. |
| C112 | Names in the generated C++ are names of C++ | partial | names_partial says exactly for which accepted bridges it holds: no name for C++ is a raw identifier or a reserved word, and no Rust name of a function, or of a function pointer among the arguments of a C++ function, is a raw identifier. renamed_breaks: with a raw Rust name no cxx_name helps; keyword_breaks: reserved words are accepted. Names of the arguments of function pointers are not modelled. |
| C113 | An error about a use by value says what the type is | proved | messages_counted ties the messages to the errors of C85. Aliases are trivial where they are used by value (C74), so there is no such error about them; named_string shows why a name of the library must not be used for an alias (the code lets this pass, see C109). |
| C114 | Generators do not panic on accepted bridges | partial | The two exact theorems say on which accepted bridges each generator panics: the macro if it writes the type id of a type whose C++ name is a raw identifier (raw_name_panics), the C++ generator if a function pointer takes or returns () (unit_pointer_panics). Panics of the standard library for want of memory or stack are not modelled. |
| C115 | C++ steps through Rust arrays as Rust does | partial | Proved for bridges in which different types have different C++ names (otherwise C71 already fails), without an alias called CxxString, and for elements that are not references: the bridge accepts &[&T], but rust::Slice<T &> does not compile. For types from headers the author vouches for the layout, as in C71, and that they do not derive from rust::Opaque (the static assertions of C74). |
| C116 | The expansion respects unsafe | partial | Undeclared unsafe functions are always rejected. The rest holds for every generated function except the exported function of some extern Rust functions that are declared unsafe: exported_partial says exactly which call them outside of unsafe blocks and which do not compile (unsafe fn f(); is one, bare_not_callable). |
| C117 | The types of the runtime have one layout | partial | Proved from the compile-time checks and what the Rust reference promises about usize and pointers. Not covered by any check, with witnesses: that wide pointers are two words (fat_unchecked; rust::Str and rust::Slice agree just if they are), std::unique_ptr of std::string and of vectors of builtin types (unique_string_unchecked), the alignment of Vec<T> for types T of a bridge (vec_align_unchecked), and the size of function pointers in C++, which fn_layout_partial assumes. |
| C118 | Values that Rust may put into smart pointers and vectors have code for it | proved | For the traits that a bridge implements for its own types and the tables of the runtime for builtin types. UniquePtr<CxxVector<T>> is left out: CxxVector implements no ExternType, so UniquePtr::new does not apply to it. Traits implemented by hand are not considered. |
| C119 | The bridges of a program generate each supporting function once | proved | Rust's rule is taken as: no two impls of a trait for a type; generic parameters are ignored. Both conditions are needed: same_name_clashes. The functions that a bridge declares are no supporting functions: two bridges that declare the same C++ function both define its shim (shared_function_clashes). |
| C12 | A Rust panic never unwinds into C++ | partial | All call stacks and panics in user code. The unguarded runtime shims for Vec::reserve and String::reserve can panic on capacity overflow; before Rust 1.81 that unwinds into C++ (reserve_overflow_unwinds). |
| C120 | The supporting functions of smart pointers and vectors are there | proved | What Rust accepts is stated as: no trait twice for a type (C119), the bounds of smart pointers are met by impls of the bridges, and the impls of ExternType and the checks of aliases (C74) compile. Assumed of the author: two declarations of a type in one bridge give it the same C++ name, and no C++ name is a raw identifier. Builtin types are C18, functions that make or take values C118. Box and Vec of aliases are not in the property: nothing checks that another bridge has instantiated them (alias_vec_missing). |
| C13 | CxxString operations match a byte string | proved | std::string is modelled by the standard's guarantee of a NUL at data()[size()]. Allocation failure is not modelled; lengths beyond max_size() terminate. |
| C14 | let_cxx_string! constructs and destroys exactly once | partial | Holds when every initialiser evaluates to a value; otherwise the destructor runs on uninitialised memory (let_cxx_string_uninit). |
| C15 | CxxVector indexing, iteration, push and pop | proved | std::vector is modelled as a list of objects with move and destroy; relocation on growth is abstracted. |
| C16 | SharedPtr and WeakPtr lifetimes | proved | Control blocks with two counts refine references to objects without counts. std::shared_ptr and std::weak_ptr themselves are modelled from the C++ standard; the aliasing constructor is not modelled. |
| C17 | UniquePtr ownership | proved | std::unique_ptr is modelled from the C++ standard as one owning pointer. |
| C18 | Built-in instantiations exist on both sides | proved | Tables transcribed from check.rs, the Rust crate and cxx.cc; decided over the whole finite domain, for every choice of size_t, ssize_t and char. |
| C19 | Enum discriminants | partial | Values proved for every enum. Fit is proved for fixed-width types; usize/isize are unchecked by the code (enum_usize_unchecked). Acceptance proved for enums without a literal -0; the code fails on -0 (enum_neg_zero_*). |
| C20 | Inferred enum repr is the first that fits | partial | Proved for enums that do not spell a discriminant -0, where the code deviates (enum_neg_zero_*). |
| C21 | Struct definitions are emitted in dependency order | partial | Full claim proved for structs without array fields. Through array fields the code neither orders nor detects cycles (array_field_out_of_order, array_cycle_accepted). |
| C22 | Type identity used for deduplication | partial | Equality decides syntactic identity on types without raw pointers and arrays; the code has no equality arm for those two, so reflexivity fails there. |
| C23 | Ordered set and ordered map | proved | HashSet/HashMap modelled as lists searched with ==. |
| C24 | Linker symbols do not collide | partial | A symbol determines the entity up to what C++ names it by. Distinctness of any two functions fails for methods of one name whose receivers differ only in mutability or only in the namespace of the type; both are accepted by the checker (witnesses). |
| C25 | Type ids identify C++ types | partial | The macro panics for an alias, as for any type with a type id, whose C++ name is a raw identifier (raw_alias_panics, and C114); proved for all other names. |
| C26 | cfg evaluation is three-valued logic | proved | Each occurrence of an unknown predicate is independent, so any(x, not(x)) with unknown x is an error. |
| C27 | Configuration lookup in cxxbridge and cxx-build | partial | Lookup is proved exact for both front ends. Agreement with Cargo fails for a feature with a hyphen in its name (hyphen_feature_missed): cxx-build looks for CARGO_FEATURE_A-B while Cargo sets CARGO_FEATURE_A_B. |
| C28 | Namespace and block braces always balance | proved | For every properly nested sequence of calls; that the writer functions nest their calls properly is C103. |
| C29 | Items are grouped by namespace without loss | proved |  |
| C30 | Include section is well formed | proved | Duplicates are not removed. Paths outside ASCII are written with Rust escapes (quoted_not_ascii). |
| C31 | Builtin definitions are closed under dependency | partial | Helpers: proved for every bridge. Headers: proved except for the names in Gap, for which nothing asks (headers_missing): std::size_t in String, Str and Error without <cstddef>; std::swap and std::declval in Slice without <utility>. In practice other headers bring them in. |
| C32 | Both generators agree on the C ABI of every function | partial | Proved for Rust functions, and for C++ functions when no function pointer has () in its signature. For the trampolines of function pointers proved unless their own parameters are functions, () or C++ vectors by value, where it is false (nested_fn_pointer_disagrees). |
| C33 | Derived comparison operators match on both sides | proved | Holds without assuming lawful impls: with Ord derived, partial_cmp forwards to cmp. |
| C34 | Opaque C++ types are never passed by value | partial | Holds for fields, arguments, return values and array elements. False for the signature of a function pointer, where the code does not check (opaque_by_value_in_fn_pointer). |
| C35 | Mutable access to opaque C++ types goes through Pin | proved | References at any depth of any written type, and receivers. |
| C36 | Mutable references are not conjured | proved |  |
| C37 | Duplicate names are rejected | partial | The accepted sets of definitions are characterised exactly. Order independence fails in two cases (duplicates_order_dependent) and is proved outside them. |
| C38 | Improper ctype analysis is exact | proved | For every iteration order of the hash set in the fixpoint loop. |
| C39 | Arguments passed by value are destroyed exactly once | partial | Calls of Rust functions: proved in full. Calls of C++ functions: proved for types whose moved-from objects own nothing; otherwise what stays behind is never destroyed (residue_leaks). |
| C40 | Generated file paths never escape the output directory | proved | Every text as source path. prefix_escapes shows why the include prefix has to go downward, outside_collides why distinctness is only claimed for sources inside the crate. |
| C41 | Relative symlinks point at the original | proved | Every pair of absolute paths without `..`, on Unix and on Windows volumes. If the link is the original or contains it the script panics; the empty relative path occurs exactly if the original is the directory of the link. |
| C42 | Generated files are written idempotently | proved | Every prior file system and every way the system calls can end, with reads and writes in pieces of any size. Unix; the file system is an explicit model. |
| C43 | Exported header directories reach dependents in order | partial | Every crate and every set of dependencies, up to 2^64 directories, through the lines that Cargo reads. Texts with a new line or a blank at the end are not told (lines_lost). Cargo turns links names into variable names by a map that is not injective; confused_names shows that two dependencies `a-b` and `a_b` mix. |
| C44 | Exported header prefixes are honoured | partial | Which directories are passed on, unused links names and the checks of the settings are exact. A used prefix is reported as unused if its dependency is also listed by links name or by another prefix (used_prefix_reported, longer_prefix_reported); without such double listing the report is exact. |
| C45 | CFG settings behave as one variable | partial | Every interleaving of any number of threads and mentions of CFG that follows a rule of one writer or several readers; single statements follow it. Overlapping changes of different settings lose one of them (cfg_lost_update); a kept mention reads old settings (cfg_stale_read); a mention that is moved after it was read leaves a copy behind (cfg_left_behind); a directory that is not UTF-8 is changed (cfg_path_changed). |
| C46 | Interned strings | proved | Every history of calls and of other use of the allocator. |
| C47 | Namespace attributes parse to the written path | partial | The attribute on an item keeps the r# of a raw identifier while the attribute on the bridge strips it (raw_namespace_kept); proved for namespaces without raw identifiers. |
| C48 | Derived ordering on shared structs and enums | proved | For PartialOrd without Ord the documented laws of the fields are not enough for transitivity (partialCmp_not_transitive); partialCmp_lawful adds that equal values compare alike. |
| C49 | No output on error | proved | Every result of parsing, every evaluator of conditions and every writer. |
| C50 | Header extraction keeps only the requested section | proved | Comments, the #define inside a section and the empty lines around it are left out, as the specification says. The header text in Verif/Header/Text.lean is generated from include/cxx.h by tools/header.py. |
| C51 | Names in an accepted bridge always resolve | proved |  |
| C52 | Both halves of a generated instantiation use the same symbols | proved |  |
| C53 | Include guards of generated types are distinct | proved |  |
| C54 | Bridge symbols do not clash with the runtime library | partial | Outside the root namespace proved. In the root namespace more names clash than the two documented ones (witness); all that can are listed and nothing else clashes. |
| C55 | Only trivially copyable data crosses the boundary in registers | partial | Exactness proved. Termination fails for a struct that contains itself in an array, which the checker accepts (array_cycle_diverges), and is proved otherwise. |
| C56 | The C++ generator can print every accepted type | partial | False for () inside a function pointer, which the checker accepts and on which the generator panics (unit_in_fn_pointer_panics); proved otherwise. |
| C57 | Generated C++ refers only to what the output provides | proved | The text is read token by token. A member helper such as repr is identified by its name without the class it belongs to. |
| C58 | Derived traits are implemented exactly as listed | proved |  |
| C59 | std::hash of a shared struct agrees with equality | proved | The hasher and the width of usize are parameters. |
| C60 | Values returned by value change hands exactly once | partial | For values that C++ moves out of the memory Rust wrote, proved for types whose moved-from objects own nothing. |
| C61 | Build scripts that run at the same time do not spoil shared files | proved | Every interleaving of any number of scripts. stale_link shows that the proviso about removing is needed; written_file_vanishes shows that the claim is about the time when all scripts have finished. |
| C62 | The cxxbridge command writes to each output what was asked for | proved | Every list of outputs, every result of parsing the input and every pattern of files that cannot be written. |
| C63 | Every bridge in a source file is generated | proved | Every tree of items. Bridges inside function bodies, behind cfg_attr, or named through a use declaration are not seen by the generator; the model follows it. |
| C64 | Types in a bridge are taken exactly as written | partial | The grammar is exact and the emitted type is determined for every accepted type. It is not always the one that was written: `unsafe` and `extern "C"` of function pointers are dropped (unsafe_pointer_changed) and Pin<Pin<..>> becomes Pin<..> (nested_pin_changed); without these it is the same type. |
| C65 | Attributes are honoured or rejected | proved | Every list of attributes and every choice of what an item looks for. The readers of namespaces, conditions and names are parameters; those of namespaces and conditions are modelled in Verif/Qualified and Verif/Cfg. last_name_counts: repeated names are not an error, the last one counts. |
| C66 | The contents of a bridge are taken exactly as written | proved | Every list of items. The input is what syn has parsed; attributes on includes and on arguments are not part of it because the parser does not read them. |
| C67 | Safe calls into C++ are vouched for | proved | Every list of items. |
| C68 | A bare self means the only type of the block | proved | Every accepted bridge. |
| C69 | Arguments in generated code have different names | partial | An argument without a name is called arg and its position, which another argument may be called as well: fn f(arg1: i32, _: i32). Missing: the case that a written name is arg with a number, where the property is false. |
| C70 | Documentation does not change the generated code | partial | Exact for text without a carriage return, and for all text if the compiler does not take a carriage return for the end of a line. False if the last line ends in a backslash: the line of code behind it becomes part of the comment. False for a lone carriage return with compilers such as clang. Missing: these two cases. |
| C71 | Shared structs have one layout | partial | Every accepted bridge whose types have different names in C++, and every machine. Types from elsewhere (aliases, generic library types) are assumed to have the layout their ExternType or the library's own assertions promise. False if two shared types have the same C++ name in one namespace: the include guard silently drops the second definition (same_cxx_name_disagrees). Missing: that case. |
| C72 | Shared enums have the same values | partial | Every enum with fixed-width representation and values of magnitude below 2^63; every header. Missing: i64::MIN and u64 values from 2^63 on, printed as decimal literals that no standard C++ integer type holds (large_values_have_no_literal), and usize/isize, which are not checked at all. |
| C73 | Calling a function of the bridge calls that function | partial | Every function of every accepted bridge, for all user functions and argument values, with the names of parameters and local variables, shadowing, symbols and linking; callbacks through their trampolines. Missing: names that clash with local variables of the generated code (error_clash, throw_clash, callback_return_clash), overloaded methods with one symbol (C24), types in a namespace std::vector, and Rust methods outside the namespace of their type (method_outside). |
| C74 | Types from elsewhere are what they claim to be | partial | Both directions, for every accepted bridge. Missing: arguments and return types of function pointers, where nothing is demanded although values are moved (moved_in_fn_pointer). |
| C75 | Smart pointers cross threads only when their contents may | proved | Every run of every program over any number of threads. The borrow rules of Rust are part of the step function. That the last owner destroys the object only when no other owner is left is C16, and not part of this model: two threads at one control block may both be the last owner here, which makes the model more permissive. |
| C76 | Conversions in generated code have the types they need | partial | Every function of every accepted bridge, both halves, with the signatures of the functions that the shims call as specification. Missing because the code is wrong: Vec<&str>, which the checks accept and the conversions do not support (ref_vec_of_str_mistyped, returned_vec_of_str_mistyped, received_vec_of_str_mistyped), and Pin<&mut String> and Pin<&mut Vec<T>> (pinned_string_mistyped); generated code for these does not compile. Function pointers with () in their signature (C32) are left out. |
| C77 | Operations on smart pointers of bridge types do what they are named after | proved | Both halves of every instantiation, linked by symbol in the whole bridge; the operations of the two standard libraries are arbitrary. Under the hypotheses that the names are identifiers, that no type is in a namespace std::vector (C24), that the completeness assertions in the C++ file hold, and, for Box and Vec, that no two Rust types have one C++ name (the C++ file would define it twice). |
| C78 | Generated C++ declares before it uses | partial | Types and functions: every bridge for which the files are written. Definitions: missing because the code is wrong, a struct that holds an array of structs may be defined before them (array_before_element). Both files are written for every accepted bridge, except where a function pointer takes (), at which the generator panics (C32). |
| C79 | Members of generated classes are declared and defined once | partial | Every accepted bridge whose methods differ, in C++, from the fields, the class and each other, and are in the namespace of their type. Missing because the code does not check this: method_like_type, method_like_field, methods_clash, method_elsewhere. |
| C80 | The generated header offers what the bridge declares | partial | Declarations, signatures and types: every accepted bridge (the files are written, except where a function pointer takes (), file_written_partial). Definitions of members: missing because the code does not check it, a Rust method in another namespace than its type (method_elsewhere). |
| C81 | Errors are shown where they are | proved | That the spans of syn lie in the text it parsed is a hypothesis (SpanIn). Drawing the diagnostic on the terminal is codespan_reporting and is not modelled. |
| C82 | Variants from a header are those of the C++ enum | partial | Holds for every translation unit in which no class or function body has an enum of the same name in the same namespace; missing because the code does not check it: such an enum is taken for the one of the namespace (local_enum_taken). Two harmless refusals are recorded too. |
| C83 | The generated types and declarations read back as what the bridge means | partial | Reading back holds for every accepted bridge whose C++ names are names of C++; well-formedness for the types without slices or arrays of references. Missing because the code does not check it: slices and arrays of references, and names that are keywords of C++, are accepted and give text that C++ refuses. |
| C84 | Functions of the expanded module have the declared signatures | partial | Holds for every accepted bridge in which no type is named c_char, CxxString or String; these can be declared as aliases (witness alias_replaced). Missing: that the compiler can tell what the result of the extern declaration inside borrows from; it cannot for a method with another reference argument, nor if the only reference argument is a string or slice (witness decl_unclear), so that such functions do not compile. |
| C85 | A bridge is accepted exactly if it follows the rules | proved | The rules are stated in Verif/Check/Rules.lean without the tables of the code. Errors of the parser (C64-C68) and of recursive structs (C21) come before and after and are apart. |
| C86 | Strings, vectors and slices handed over keep their contents and have one owner | partial | Proved for all values and for all references except references to vectors of strings: from_ref_vec_string and as_vec_string reinterpret a Vec<String> as a Vec<RustString>, which is right only if the compiler gives both the same layout (strings_seen_partial; witness of what happens otherwise: strings_confused). Elements other than strings own nothing in the model. |
| C87 | Both compilers see the same function | partial | Rust functions: complete. C++ functions: missing are bridges with a function pointer type that has () among its parameters. Trampolines: missing are parameters and results that are (), function pointers or CxxVector by value, for which the code is wrong (nested_fn_pointer_texts). That &str is written str is proved of all that the parser returns (items_str). |
| C88 | Both halves agree on what #[cfg] switches off | partial | Which functions, fields and variants are left: complete. The rest is proved where all types and all fields are switched on; it is false otherwise: a type that is switched off always leaves code behind that names it (off_type_breaks), a field that is switched off can change how the struct is passed on one side only (field_changes_abi). Support code that only a switched-off function needs stays in the Rust module without its C++ part (instance_left_over). Not modelled: several bridges in one file, a condition on the module itself. |
| C89 | An exception never leaves its language except as an error | proved | Panics are on the same stack (C12), with the exception of C12's: that exported functions without prevent_unwind panic before Rust 1.81 is excluded by hypothesis. A trycatch of the user's that swallows an exception without calling fail is excluded; it makes Rust read an uninitialised result (swallowed). That a moved-from rust::Error has no message is in C11. Exceptions thrown by destructors during unwinding, and by what() itself, are not modelled. |
| C90 | Every name in the expanded Rust module is defined once and means what it says | partial | Every accepted bridge whose author keeps the names apart (Distinct). Missing because the code does not check it, each with an accepted bridge that clashes: names with underscores at the ends or doubled (method_like_function, methods_alike), functions called like an operator, methods that differ in the receiver only, equal variants, traits derived twice, a struct after an alias, a C++ function called like an imported constructor. Types called forbid are not found from the hidden block (forbid_hidden), and an alias called bool replaces bool in Rust but not in C++ (primitive_captured). That the names are in scope in the module around the bridge is rustc's to check. |
| C91 | Smart pointers compare, hash and print as what they point to | proved | For every target type: each law of the traits is inherited on its own, so also for types that are only partially ordered. That a non-null pointer has a live target is C16 and C17; the texts of a C++ string are C04 and C05. |
| C92 | A UniquePtr to a stream is that stream | partial | Missing: read_vectored, which the code does not pass on (read_vectored_not_passed_on), so that it reads into the first buffer only (read_vectored_partial). Strings longer than std::string allows end the process, see C13. |
| C93 | The header that include! names is the header that is included | partial | Exactly when it holds is proved: in quotes for plain ASCII without quotes, apostrophes and backslashes, in angle brackets for paths without blanks and comments. The code falsifies it elsewhere: escape_default turns other characters into escapes that a C++ header name does not have (quoted_path_changed), and blanks between tokens are dropped (blank_lost). How the Rust lexer cuts text into tokens is taken as given. |
| C94 | Headers are found after the build | partial | Files of the crate and of other crates are found after the first build in an output directory. In one that was used before, a header that is no longer generated stays and hides a file of the crate (stale_header). Unix; the script runs alone and its system calls succeed (C42 and C61 have failures and concurrency); directories on the way to OUT_DIR are not links. |
| C95 | A build changes nothing but its own directories | partial | Holds for every history of builds with the same include prefix, killed at any time, if looking for a file and removing a link do not fail. If the prefix is made longer, the new link to the crate is made through the old one, and a directory of the crate with the name is removed with all that is in it (source_deleted). If a link cannot be removed, the file that it leads to is overwritten (original_overwritten). Unix; one script at a time; no name is .. (the include prefix is not checked for it). |
| C96 | All crates of a build share one directory and go on sharing it | partial | Exact for every file system. That builds keep it (target_kept) is proved for builds that change nothing but their own directories, which C95 proves except when the include prefix is made longer or a link cannot be removed; the way up from the output directory has no links. The statement needs its condition: a file CACHEDIR.TAG below the target directory separates a crate (tag_separates). |
| C97 | A type with lifetimes can be used wherever one without can | proved | For every accepted bridge whose own lifetimes are right; cxx does not check that (bare_rejected: impl UniquePtr<C> {} for a type with a lifetime is accepted and rustc rejects what is generated). Whether an elided lifetime in a result has an argument to be taken from is C84, not this. |
| C98 | Without symbolic links, a crate's headers are found all the same | proved | The place of the copies is empty when the copy begins (the failed attempt at a link has removed what was there). A header that is a symbolic link, has another extension or lies deeper is found where links can be made and not found here: shown beside the theorem. |
| C99 | Pointers and vectors of built-in types do what their names say | proved | Linked against the functions of the runtime only; that no other symbol of a program is the same is C54. What the library operations do is a parameter. Strings are not pushed or popped by value. |

## Where the code and the expected property disagree

Each of these is proved by a witness in the model, or follows from the exact characterisation named in the manifest.

Runtime:
* With signed `char` the order of `rust::Str` is not Rust's order (C06).
* Iterating a `rust::Slice` of a type of size zero visits nothing (C07).
* `what()` of a moved-from `rust::Error` is null, and throwing one through the bridge takes the length of null (C10, C11).
* `Vec::reserve`/`String::reserve` shims are not guarded against a capacity overflow panic (C12).
* Copy assignment of `rust::Vec` with a throwing element copy leaves a destroyed object in place (C09).
* `rust::Vec::emplace_back` with an argument inside the vector reads freed memory after reallocation (C09).
* A moved-from C++ argument or return value that still owns something is never destroyed (C39, C60).
* `let_cxx_string!` runs the destructor on uninitialised memory when the expression leaves early (C14).
* The lexicographic partial order derived for a struct is not transitive under the bare documented laws (C48).

Names and types:
* An `extern` alias followed by a struct of the same name is treated differently from the other order; the order of enum
  declarations matters to the header as well.
* `is_guaranteed_pod` does not terminate on `struct A { x: [A; 1] }`, which is accepted; array fields are ignored when
  structs are sorted by containment (C21, C55).
* `fn f(cb: fn(fn()))` is accepted although the two sides disagree on the ABI; `fn f(cb: fn(()))` is accepted and hits
  `unreachable!()`; an opaque type by value inside a function pointer is accepted; `Pin` of a non-opaque type is accepted
  (C32, C34, C56).
* Symbols collide for methods overloaded across namespaces, and for `Vec<S>` or `CxxVector<S>` with the C++ name of a
  built-in type in the root namespace (C24, C54).
* `#[namespace = org::r#box]` on an item and raw identifiers such as `fn r#type` leave `r#` in C++ names (C47).
* Names of type aliases are not checked against reserved names.
* Discriminants of `usize`/`isize` enums are not checked for range and a literal `-0` is mishandled (C19, C20); duplicate
  discriminants are accepted.
* `Type` has no equality for raw pointers and arrays, so equality is not reflexive there (C22).
* Which duplicate definitions are rejected depends on their order in two cases (C37).
* Operators are defined for a shared struct that is also declared `extern "C++"` although the class is not written.

Configuration and build:
* Feature lookup in `cxx-build` does not translate `-` to `_`; bare `cfg(target_os)` is true there and false in rustc;
  `cfg(true)`/`cfg(false)` are rejected; `any(x, not(x))` with unknown `x` is an error (C26, C27).
* Duplicate user includes are written twice; `escape_default` turns a non-ASCII include path into `\u{..}`; some needed
  standard headers are not requested (C30, C31).
* A doc comment whose line ends in a backslash swallows the next generated line (gen/src/write.rs:254-271).
* An include prefix with `..` escapes `OUT_DIR`; sources outside the crate may collide with sources inside (C40).
* A relative link may be empty or panic when the link contains its original; a stale link is taken for success; a written
  shared file may vanish while another script rewrites it (C41, C61).
* `links` names `a-b` and `a_b` mix; a directory with a new line in its name or a blank at its end is not told to Cargo as it is; a used exported prefix is reported as unused (C43, C44).
* `CFG`: updates are lost across overlapping handles, reads through a kept handle are stale, directories that are not UTF-8 are changed (C45).
* `#! [` is treated as a shebang line; bridges inside function bodies, behind `cfg_attr` or named through `use cxx::bridge`
  are not found by the generator (C63).

Types in signatures:
* `unsafe` and the ABI of a function pointer in a signature are dropped: `cb: unsafe extern "C" fn(i32)` becomes
  `cb: fn(i32)` in the emitted signature, so safe Rust code can hand over and is told it may call what was declared unsafe
  (syntax/tokens.rs:248-287); `Pin<Pin<&mut T>>` becomes `Pin<&mut T>` (C64).

Items:
* Attributes on `include!(..)`, even `#[cfg(..)]`, are ignored, as are attributes on arguments, a `where` clause on an extern
  type, the `unsafe` of `unsafe impl`, and attributes of an `impl` that are meant for rustc (C66).
* `mut` and `ref` in front of an argument are ignored; every item becomes `pub` whatever its visibility (C66).
* Discriminants are counted over all variants, including those with a `cfg` that does not hold (C66).
* `fn f(arg1: i32, _: i32)` gives two arguments of the name `arg1`, which neither compiler accepts (C69).

Documentation:
* A doc comment whose last line ends in a backslash, as in `/// in C:\`, makes the next line of the generated C++ part of the
  comment: a field, variant or method disappears, or the file does not compile. `#[doc = "a\rint x;"]` adds code with
  compilers that take a carriage return for the end of a line (C70).

Layout:
* Two shared structs with one C++ name, `struct A { x: u8 }` and `#[cxx_name = "A"] struct B { x: u64 }`, are accepted. The second
  C++ definition is inside an include guard that the first has defined, so the C++ compiler silently skips it: what is 8 bytes in
  Rust is 1 byte in C++ (C71).
* `enum E { A = -9223372036854775808 }` and values of a `u64` enum from 2^63 on are printed as decimal literals that have no type
  in standard C++; compilers warn or reject (C72).

Calls:
* `extern "Rust" { fn f(error: Vec<u8>) -> Result<()>; }` is accepted; the generated C++ declares the variable `error$` twice and
  does not compile (C73).
* `extern "C++" { #[cxx_name = "x"] fn throw() -> Result<()>; }` is accepted; the generated C++ declares the variable `throw$` twice
  and does not compile (C73).
* The names of arguments inside function pointer types are not checked: `fn f(cb: fn(__return: u8) -> String)` is accepted and the
  generated Rust has two parameters `__return` (C73).
* A Rust method may be declared in another namespace than its type; the generated C++ then defines `other::R::m` instead of
  `org::R::m` and does not compile (C73).

Types from elsewhere:
* `type A = path;` with `fn f(cb: fn(A) -> A)` is accepted and compiles although the `ExternType` impl of `A` says `Opaque`: inside
  function pointer types by-value uses are not recorded (C74).

Conversions:
* `Vec<&str>` is accepted (syntax/check.rs:131), but `fn f() -> Vec<&'static str>` and `fn f(a: &Vec<&str>)` in C++ and `fn f(a: Vec<&str>)`
  in Rust expand to code that does not compile: `RustVec<RustStr>` is converted to `Vec<RustStr>`, not to `Vec<&str>` (C76).
* `Pin<&mut String>` and `Pin<&mut Vec<T>>` are accepted, but the expansion passes the pin to `RustString::from_mut` or
  `RustVec::from_mut`, and does not compile (C76).

The generated C++ file:
* `struct A { f: [B; 2] }` before `struct B` is accepted, and `A` is defined in C++ before `B`: the order of structs (syntax/toposort.rs:39) looks at
  fields of type `B` only, not at arrays (C78).
* Methods are not compared with what else the C++ class has: `fn R(self: &R)`, `fn layout(self: &R)`, a method called like a field, two
  methods with the same `cxx_name`, and a method in a `namespace` other than that of its type are accepted, and the C++ code does not compile (C79).

Enums from headers (experimental feature):
* An enum in the body of a class or a function is taken for one of the namespace around it: with `enum class E : int;` and
  `struct S { enum class E : int { A = 7 }; };` the bridge's `E` gets `A = 7` (C82).
* A declaration `enum class E : int;` after the definition is reported as a second definition, and an enumerator with a
  documentation comment as one without a value (C82).

The text of C++ types:
* Slices and arrays of references are accepted (`&[&u8]`, `[&u8; 2]`: syntax/check.rs checks the element of a slice and of an array for
  unsized types only), and are written as `::rust::Slice<::std::uint8_t const &const>` and `::std::array<::std::uint8_t const &, 2>`, which C++ refuses (C83).
* No keyword of C++ is reserved: `struct class { x: u8 }` is accepted and written as it is (C83).

Signatures in the expansion:
* `fn get(&self, key: &C) -> &C` and `fn find(key: &str) -> &C` are accepted although the extern declaration inside the generated function
  (`fn __get(_: &C, key: &C) -> &C`, `fn __find(key: RustStr) -> &C`, macro/src/expand.rs:460-499) has a result whose lifetime
  the compiler cannot tell (C84, `decl_unclear`).
* An alias may have the name of a type that the macro replaces (`type String = ...`, syntax/check.rs checks the names of structs, enums and
  opaque types only); `self: &String` then is a method of the alias, while `String` elsewhere is the standard one (C84, `alias_replaced`).

Representation of vectors:
* `RustVec::from_ref_vec_string`, `from_mut_vec_string`, `as_vec_string` and `as_mut_vec_string` (src/rust_vec.rs:86-92, 102-108) cast a
  reference to `Vec<String>` to one to `Vec<RustString>`; Rust does not promise that the two have the same layout, and no assertion
  checks it (C86, `strings_confused`).  `from_vec_string` and `into_vec_string` go through the raw parts and do not need it.

Conditions:
* `#[cfg(..)]` on a type of a bridge leaves impls, operators, assertions and `use super::T` in the expanded module without the condition (macro/src/expand.rs:308-319, 345-378, 394-420, 826-882), so that it does not compile when the condition is false (`off_type_breaks`: always, unless the type is an alias; C88).
* `#[cfg(..)]` on a field is evaluated before the C++ generator decides how the struct is passed but after the macro has decided it.  With `enum E { A } struct S { x: E, #[cfg(a)] y: String } fn f(s: S)` and `a` off, Rust passes a pointer and C++ takes the struct by value (C88, `field_changes_abi`).
* The instantiations for `UniquePtr<T>` and the like that only a switched-off function mentions are still in the expanded module, with extern declarations that the C++ file does not define (C88, `instance_left_over`).  The same holds of the assertions of triviality that only a switched-off function asks for.

Exceptions:
* `throw$` is not initialised before `trycatch` runs (gen/src/write.rs:821), so a user-defined `rust::behavior::trycatch` with a `catch`
  block that does not call `fail` returns an uninitialised pointer to Rust (C89, `swallowed`).  The property assumes that there is none.

Names in the expanded Rust module (C90):
* Accepted bridges whose expansion defines a name twice, so that rustc reports an error in generated code: `R_::f` and `R::_f` are both `__R___f` (`methods_alike`); a Rust function `operator_eq_S` next to a struct `S` with `PartialEq` (`function_like_operator`); C++ methods `f(&self)` and `f(&mut self)` of one type (`methods_by_mutability`; C37's check compares whole receivers); equal variants of an enum (`variants_alike`); `#[derive(Hash, Hash)]` (`derived_twice`).
* A shared struct called `forbid` is hidden by the module `forbid` of the generated block (`forbid_hidden`).
* Aliases are not checked for reserved names (syntax/check.rs:503-510): with `type bool = path::Flag;`, which has another name in C++, the argument `x: bool` of a function is a `Flag` in Rust and a `bool` in C++ (`primitive_captured`).

Streams (C92):
* `Read for UniquePtr` says that it forwards like `Box` and leaves out only what is not stable, but `read_vectored` is stable and is not forwarded (src/unique_ptr.rs:250-281), so a target that fills many buffers at once fills one (`read_vectored_not_passed_on`).  This is within the contract of `Read`.

Include paths (C93):
* `include!("é.h")` becomes `#include "\u{e9}.h"`, and `include!("it's.h")` becomes `#include "it\'s.h"` (gen/src/include.rs:77 uses `escape_default`; C++ has no escapes in header names), so the header is not found (`quoted_path_changed`).
* `include!(<my header.h>)` includes `<myheader.h>` (syntax/parse.rs:1111-1126), `blank_lost`.

Stale headers (C94):
* `cxx_build` never removes what an earlier build wrote below `OUT_DIR/cxxbridge`.  If `src/lib.rs` no longer has a bridge and the user writes `src/lib.rs.h` themselves, `#include "demo/src/lib.rs.h"` still finds the old generated header, because the directory of generated headers comes first (gen/build/src/lib.rs:276-288), `stale_header`.

Sources removed by a build (C95):
* `make_crate_dir` makes a link at `OUT_DIR/cxxbridge/crate/<include_prefix>` that leads to the crate, and first removes what is there (gen/build/src/out.rs:70-73, 146-155), with `remove_dir_all` if it is a directory.  Cargo keeps `OUT_DIR` between builds.  After a build with `CFG.include_prefix = "demo"`, a build with `CFG.include_prefix = "demo/src"` finds the directory `crate/demo/src`, which is `src` of the crate itself, seen through the old link, and removes it (`source_deleted`).
* If a link that stands in the way of a generated file cannot be removed, the error is ignored and the file is written through the link (gen/build/src/out.rs:18-24); for `rust/cxx.h` this is the header in the sources of the cxx crate (`original_overwritten`).

Lifetimes of explicit impls (C97):
* `unsafe extern "C++" { type C<'a>; } impl UniquePtr<C> {}` is accepted, and the generated `unsafe impl UniquePtrTarget for C` is rejected by rustc (E0726); the same holds for a second declaration of a type with another number of lifetimes.  Nothing in syntax/check.rs counts lifetimes (`bare_rejected`).

Copied headers (C98):
* Where no link can be made (not on Unix), a header whose name ends in `.hxx`, `.inc` or `.ipp`, one that is itself a symbolic link, and one in a nested crate are not copied, while all of them are found through a link.  The property is stated for what is copied; the differences are examples beside `copy_found`.

The runtime without `alloc` (C102):
* `cxx.cc` is compiled the same way with and without the feature `alloc` (build.rs:12-18), but without it the crate does not export the functions of `rust::String`, `cxxbridge1$str$ref` and `cxxbridge1$exception` that it declares (`missing_without_alloc`). The crate calls this mode incomplete (src/lib.rs:423-426).

Types of different bridges with the same name (C106):
* Include guards are made of the C++ name of a type alone (gen/src/write.rs:278, 382, 432).  If two bridges, in different crates for instance, define different structs of the same qualified name, a C++ file that includes both headers gets the first definition for the functions of both, without an error; what is 8 bytes in Rust may be 1 byte in C++ (`definition_suppressed`).

Several bridges in one file (C109):
* `generate` (gen/src/mod.rs:148-172) puts the items of all bridges of a file together, while the macro sees one.  If one bridge declares `struct S` with a method and another one `#[cxx_name = "T"] type S;`, both expansions and the C++ generator accept, but the C++ code calls `cxxbridge1$T$f` and Rust exports `cxxbridge1$S$f` (`halved_disagrees`).
* `check_api_type_alias` (syntax/check.rs:503-510) does not look at reserved names.  An alias named `u8` is accepted and makes `[u8; 4]` unsized in every other bridge of the file (`alias_disturbs`).

Raw identifiers and reserved words (C112):
* `fn r#type()` is accepted and written to C++ with its `r#`. `#[cxx_name]` does not help: the Rust name is part of the linker symbol (syntax/mangle.rs) and of a local variable (gen/src/write.rs), so such a function cannot be bridged at all. The same goes for the name of an argument that is a function pointer.
* A name that is a reserved word of C++ (`struct P { new: u8 }`) is accepted and gives C++ that does not compile.

Panic of the macro for raw type names (C25, C114):
* `type r#box;`, `struct r#box { .. }`, `enum r#box { .. }` and `type r#box = path;` are accepted; then `#[cxx::bridge]` panics, because `type_id` in macro/src/expand.rs:1295 gives the text `r#box` to `Ident::new`. `type_id!("ns::r#box")` itself handles raw names. The same happens with `#[cxx_name = "r#box"]`.
* Together with the panic of C56 (`fn(())` in a signature) these are the only accepted bridges on which a generator panics.

Unsafe functions of Rust without arguments (C116):
* `extern "Rust" { unsafe fn f(); }` is accepted, and the expansion does not compile (E0277): the exported function hands `__f`, an `unsafe fn`, to `prevent_unwind`, which wants an `FnOnce`. macro/src/expand.rs:1059-1073 decides about the closure and the `unsafe` block without looking at `sig.unsafety` (`bare_not_callable`).
* With `unsafe fn f(x: u8)` there is a closure but no `unsafe` block in it (`plain_not_explicit`). It compiles, because the exported function is itself an `unsafe fn`. The lint `unsafe_op_in_unsafe_fn` is not reported in code of macros from other crates; tests/ffi/lib.rs forbids it and has such a function.

Layouts that no compile-time check covers (C117):
* That `&str` and `&[T]` are two words: src/rust_str.rs:27-28 and src/rust_slice.rs:62-66 compare them with arrays whose length is computed from their own size, and not with `[usize; 2]` as src/rust_string.rs:46 does with `[usize; 3]` (`fat_unchecked`). The Rust reference says that this should not be relied on.
* That `std::unique_ptr<std::string>` and `std::unique_ptr<std::vector<T>>`, for builtin `T`, are pointers: the assertions of gen/src/write.rs:1698-1707 have no counterpart in src/cxx.cc, as those for `shared_ptr` and `weak_ptr` have (`unique_string_unchecked`).
* The alignment of `Vec<T>` for types of a bridge; its size is checked by `transmute` (`vec_align_unchecked`).

Functions declared in two bridges (C119):
* Two bridges of a program that declare the same C++ function are accepted, and both generate the function `cxxbridge1$g` that calls it, so that the program does not link (`shared_function_clashes`). Nothing in the expansion lets the Rust compiler see it, as it sees two `Box<T>` for one `T`.

Vectors of types from another bridge (C120):
* A bridge that has `type S = path::to::S;` and uses `Vec<S>` or `Box<S>` is accepted, and Rust accepts the program, whether or not some bridge generates the functions of `Vec<S>` (`alias_vec_missing`). The markers `ImplBox` and `ImplVec` are implemented but never demanded, other than the traits of smart pointers. The error comes from the linker.

## Modelled code

Lines cited by the model, per file of the repository; what a citation leaves out is said in the comment where it stands.
Ranges closer than five lines are joined.  Files of these directories that do not appear below are not modelled.

| file | lines modelled | by (under `lean/Verif/`) |
|------|----------------|----|
| build.rs (75) | 12-18, 48-51 | Stream/Model, Strings/Props |
| gen/build/src/cargo.rs (155) | 10-69, 74-78, 88-92, 97-116, 126-141, 151-155 | Cfg/Lookup, Cfg/TreeModel, Gen/FrontModel |
| gen/build/src/cfg.rs (497) | 14-300, 353-377, 405-420, 429-432, 447-495 | Build/CfgVarModel |
| gen/build/src/deps.rs (107) | 6-107 | Build/DepsModel |
| gen/build/src/intern.rs (29) | 4-5, 13-29 | Build/InternModel |
| gen/build/src/lib.rs (472) | 141-161, 173-176, 208-467 | Build/CopyModel, Build/CopyProps, Build/CrateModel, Build/IncludeModel, Build/PathModel, Build/PathProps, Build/TargetModel, Gen/FrontModel |
| gen/build/src/out.rs (305) | 7-122, 156-234, 243-259 | Build/IncludeModel, Build/PathModel, Build/TouchModel, Build/WriteModel |
| gen/build/src/paths.rs (76) | 18-28, 35-39 | Build/PathModel |
| gen/build/src/target.rs (49) | 5-49 | Build/TargetModel |
| gen/build/src/vec.rs (50) | 20-25 | Build/CfgVarModel |
| gen/cmd/src/app.rs (217) | 76-110, 139-152 | Cfg/Lookup, Gen/CommandModel, Preamble/IncludeModel |
| gen/cmd/src/cfg.rs (93) | 8-11, 29-64, 76-93 | Cfg/Lookup |
| gen/cmd/src/main.rs (118) | 54-118 | Gen/CommandModel, Gen/FrontModel |
| gen/cmd/src/output.rs (16) | 3-15 | Gen/CommandModel |
| gen/lib/src/error.rs (75) | 45-75 | Gen/FrontModel |
| gen/lib/src/lib.rs (58) | 53-58 | Gen/FrontModel |
| gen/src/block.rs (45) | 3-44 | Out/Model, Qualified/Props, Together/Model |
| gen/src/builtin.rs (424) | 6-36, 44-424 | Assert/Model, Exception/Model, Header/Check, Preamble/BuiltinModel, Repr/Model, Throw/Model, Thunk/Model, Together/Model |
| gen/src/cfg.rs (133) | 9-109, 126-133 | Cfg/Model, Stripped/Model |
| gen/src/check.rs (27) | 9-27 | Gen/PipelineModel |
| gen/src/error.rs (175) | 18-24, 37-46, 60-175 | Gen/PipelineModel, Report/Model |
| gen/src/file.rs (74) | 19-74 | Gen/FileModel |
| gen/src/fs.rs (172) | 71-76 | Build/WriteModel |
| gen/src/ifndef.rs (46) | 4-46 | Header/Model |
| gen/src/include.rs (218) | 13-46, 53-194 | Preamble/IncludeModel |
| gen/src/mod.rs (199) | 45-199 | Cfg/Model, Check/Model, Gen/FileModel, Gen/FrontModel, Gen/PipelineModel, Report/Model, Several/Spec, Stripped/Model |
| gen/src/names.rs (14) | 4-13 | CxxText/Model, Nested/Bridge, Qualified/Props |
| gen/src/namespace.rs (14) | 5-13 | Nested/Model |
| gen/src/nested.rs (156) | 5-13, 26-51 | Nested/Model |
| gen/src/out.rs (210) | 20-88, 111-135, 141-209 | Out/Model, Plain/Model, Together/Model |
| gen/src/write.rs (1992) | 18-35, 48-221, 230-1205, 1216-1425, 1433-1656, 1664-1992 | Abi/Model, Assert/Model, Builtins/Model, Call/Model, Conv/Model, CxxText/Model, CxxVector/Model, Derive/Model, Doc/Model, Exception/Model, Gen/FrontModel, Layout/EnumModel, Layout/Model, Mangle/Model, Mangle/Props, Names/Props, Nested/Bridge, Nested/Model, Parse/Ffi, Placed/Model, Plain/Model, Preamble/UseModel, Prototype/Model, Reasons/Model, Repr/Model, Repro/Spec, RustBox/Model, SharedPtr/Model, Shim/Model, Shim/Props, Sizes/Model, Throw/Model, Throw/Support, Thunk/Model, Together/Model, UniquePtr/Model, Unit/Model |
| include/cxx.h (1149) | 1-1149 | Assert/Model, Call/Spec, Exception/Model, Header/Text, Repr/Model, RustBox/Model, RustVec/Model, Sizes/Model, Slice/Model, Throw/Bridge, Throw/Props, Together/Model, View/Model |
| macro/src/clang.rs (51) | 3-13, 42-48 | Load/Model |
| macro/src/derive.rs (306) | 7-98, 110-138, 159-231, 256-306 | Derive/Model, Lifetimes/Model, Panics/Model |
| macro/src/expand.rs (1981) | 20-307, 320-1246, 1266-1944 | Abi/Model, Assert/Model, Call/Model, Check/Model, Conv/Model, Derive/Model, Exception/Model, Gen/PipelineModel, Layout/EnumModel, Layout/Model, Lifetimes/Model, Mangle/Model, Mangle/Props, Names/Model, Once/Model, Panics/Model, Prototype/Model, Qualified/Model, Repro/Spec, RustBox/Model, RustSig/Model, Several/Spec, SharedPtr/Model, Shim/Model, Shim/Props, Sizes/Model, Stripped/Model, Thread/Model, Throw/Support, Thunk/Model, UniquePtr/Model, Unsafety/Model, Unwind/Model |
| macro/src/generics.rs (91) | 19-63, 70-91 | Lifetimes/Model |
| macro/src/lib.rs (94) | 76-94 | Qualified/Model |
| macro/src/load.rs (309) | 21-252, 263-291 | Load/Model |
| macro/src/tokens.rs (75) | 11-70 | RustSig/Model |
| macro/src/type_id.rs (44) | 21-44 | Qualified/Model |
| src/cxx.cc (815) | 7-71, 95-289, 295-336, 342-383, 390-403, 414-421, 465-513, 525-528, 540-552, 563-569, 582-815 | Builtins/Model, CxxString/Model, Exception/Model, Repr/Model, Runtime/Model, RustString/Model, Slice/Model, StrCmp/Model, Strings/Model, Throw/Model, Throw/Support, Utf8/Model, View/Model |
| src/cxx_string.rs (329) | 17-32, 44-48, 82-90, 104-329 | CxxString/Model, Mangle/Runtime, PtrTraits/Model, Repr/Model, Stream/Model, Strings/Model, Thread/Model, Throw/Support, View/Model |
| src/cxx_vector.rs (503) | 24-34, 41-42, 52-54, 61-73, 81-87, 130-168, 180-206, 212-215, 235-244, 251-253, 362-377, 390-503 | Builtins/Model, CxxVector/Model, Fits/Model, Fits/Props, Once/Provided, Repr/Model, Runtime/Model, Thread/Model, Throw/Support, View/Model |
| src/exception.rs (32) | 14-21, 27-30 | Exception/Model |
| src/extern_type.rs (225) | 151-174, 184, 201-224 | Assert/Model, Fits/Model, Qualified/Model |
| src/function.rs (9) | 5-9 | Repr/Model |
| src/hash.rs (6) | 4-6 | Derive/Model |
| src/lib.rs (538) | 521-528 | Qualified/Model |
| src/lossy.rs (67) | 5-67 | Utf8/Model, Utf8/WriterModel |
| src/opaque.rs (33) | 17-33 | Repr/Model, Thread/Model |
| src/result.rs (70) | 13-69 | Exception/Model, Mangle/Runtime, Repr/Model, Strings/Model, Throw/Support, Unsafety/Spec |
| src/rust_slice.rs (66) | 7-66 | Repr/Model, Unsafety/Spec, Words/Model |
| src/rust_str.rs (28) | 7-28 | Repr/Model, Unsafety/Spec, Words/Model |
| src/rust_string.rs (48) | 8-48 | Repr/Model, Words/Model |
| src/rust_type.rs (5) | 3-5 | Once/Model |
| src/rust_vec.rs (115) | 12-17, 24-46, 60-115 | Repr/Model, RustVec/Model, Unsafety/Spec, Unwind/Model, Words/Model, Words/Props |
| src/shared_ptr.rs (316) | 15-23, 31-51, 56-67, 74-89, 95-103, 114-200, 233-242, 250-316 | Builtins/Model, Fits/Model, Fits/Props, Once/Provided, PtrTraits/Model, Repr/Model, Runtime/Model, SharedPtr/Model, Thread/Model, Throw/Support |
| src/symbols/exception.rs (18) | 9-18 | Exception/Model, Strings/Model, Throw/Model |
| src/symbols/mod.rs (5) | 1-5 | Strings/Model |
| src/symbols/rust_slice.rs (20) | 5-20 | Slice/Model, Strings/Model, Words/Model |
| src/symbols/rust_str.rs (43) | 8-43 | StrCmp/Model, Strings/Model, Utf8/Model, Words/Model |
| src/symbols/rust_string.rs (114) | 10-114 | RustString/Model, StrCmp/Model, Strings/Model, Unwind/Model, Utf8/Model |
| src/symbols/rust_vec.rs (75) | 10-75 | Builtins/Model, Repr/Model, Runtime/Model, RustVec/Model |
| src/unique_ptr.rs (469) | 22-30, 38-54, 59-78, 85-100, 116-120, 130-139, 145-355, 388-397, 406-469 | Builtins/Model, Fits/Model, Fits/Props, Once/Provided, PtrTraits/Model, Repr/Model, Runtime/Model, Stream/Model, Thread/Model, Throw/Support, UniquePtr/Model, Unsafety/Spec |
| src/unwind.rs (39) | 5-39 | Throw/Model, Unwind/Model |
| src/weak_ptr.rs (179) | 12-21, 30-37, 43-58, 64-72, 79-92, 114-179 | Builtins/Model, Once/Provided, PtrTraits/Model, Repr/Model, Runtime/Model, SharedPtr/Model, Thread/Model, Throw/Support |
| syntax/atom.rs (103) | 5-23, 30-51, 60-82 | Syntax/Atom |
| syntax/attrs.rs (312) | 29-283 | Parse/AttrModel, Qualified/Model |
| syntax/cfg.rs (80) | 7-80 | Cfg/Model |
| syntax/check.rs (739) | 13-31, 42-74, 82-633, 643-668, 704-739 | Abi/Props, Builtins/Model, ByValue/Model, Check/Model, Check/Props, Conv/Props, Reasons/Model |
| syntax/derive.rs (81) | 10-45 | Parse/AttrModel, Syntax/Ast |
| syntax/discriminant.rs (335) | 10-335 | Discriminant/Lemmas, Discriminant/Model, Discriminant/Props, Layout/EnumModel, Layout/Spec, Load/Model |
| syntax/doc.rs (46) | 28-35 | Doc/Model |
| syntax/error.rs (100) | 3-10, 18-30 | Report/Model |
| syntax/file.rs (133) | 10-84 | Gen/FileModel, Parse/ItemModel |
| syntax/ident.rs (57) | 4-57 | Check/Model |
| syntax/impls.rs (450) | 42-84, 338-361, 382-394, 401-429 | TypeEq/Model, Types/Model |
| syntax/improper.rs (39) | 6-38 | Improper/Model |
| syntax/instantiate.rs (84) | 6-14, 30-57, 68-71 | Types/Model |
| syntax/mangle.rs (120) | 31, 39, 79, 87-120 | Mangle/Model, Mangle/Runtime |
| syntax/map.rs (172) | 16-36, 43-141 | Ordered/Model, Types/Model |
| syntax/mod.rs (344) | 52-63, 77-140, 153-279, 324-327, 332-336, 341-344 | Layout/EnumModel, Load/Model, Preamble/IncludeModel, Syntax/Ast |
| syntax/names.rs (61) | 16-25, 38-50 | Load/Model, Mangle/Model, Panics/Spec, Thunk/Model, Unit/Spec |
| syntax/namespace.rs (115) | 12-15, 26-67 | Qualified/Model, Syntax/Ast |
| syntax/parse.rs (1488) | 30-698, 835-1151, 1172-1193, 1221-1316, 1323-1330, 1336-1350, 1379-1409, 1436-1488 | Abi/Spec, Call/Model, Discriminant/Model, Layout/EnumModel, Layout/Spec, Lifetimes/Model, Parse/ItemModel, Parse/TypeModel, Preamble/PathModel, Prototype/Spec, Qualified/Model, RustSig/Model |
| syntax/pod.rs (34) | 5-33 | Pod/Model |
| syntax/primitive.rs (22) | 4-22 | Pod/Model |
| syntax/qualified.rs (63) | 10-20, 27-63 | Qualified/Model |
| syntax/report.rs (32) | 14-16, 22-31 | Gen/PipelineModel, Load/Model |
| syntax/resolve.rs (46) | 12-46 | Lifetimes/Model, Mangle/Model, Panics/Model, RustSig/Model |
| syntax/set.rs (120) | 11-14, 20-43, 64-119 | Ordered/Model, Types/Model |
| syntax/symbol.rs (110) | 9, 24-40, 65-77, 103-110 | Builtins/Model, Mangle/Model |
| syntax/tokens.rs (308) | 10-40, 235-246, 262-285, 300-306 | Names/Spec, Parse/TypeModel, RustSig/Model |
| syntax/toposort.rs (51) | 5-51 | Toposort/Model |
| syntax/trivial.rs (312) | 8-122, 127-312 | Check/Model, Reasons/Model |
| syntax/types.rs (291) | 15-255, 264-277 | Abi/Model, Builtins/Model, Check/Model, Gen/PipelineModel, Improper/Model, Lifetimes/Model, Mangle/Model, Preamble/UseModel, Repro/Spec, Toposort/Model, Types/Model, Unsafety/Model |
| syntax/visit.rs (34) | 9-34 | Builtins/Model, Types/Model |

## Code that is not modelled

* The tokenizer and the grammar of Rust, which belong to `syn`; the errors of the checks are reduced to which error it is (how they
  are shown is C81).
* `macro/src/derive.rs`' text beyond the bodies it expands to,
  documentation attributes and lint attributes in the expansion.
* Starting the C++ compiler, Cargo's own behaviour beyond the variables listed above, Windows symbolic link privileges.
* Formatting traits that forward to another formatter, iterators that forward to a slice, `AsRef`/`Deref` one-liners, unless
  they are cited above.
* The token reader of `gen/lib`, Bazel/Buck files and the book; the tests and the demo are only used to check the model.

Files without any modelled line: `src/fmt.rs`, `src/macros/assert.rs`, `src/macros/mod.rs`, `src/memory.rs`, `src/type_id.rs`, `src/vector.rs`, `macro/src/syntax/atom.rs`, `macro/src/syntax/attrs.rs`, `macro/src/syntax/cfg.rs`, `macro/src/syntax/check.rs`, `macro/src/syntax/derive.rs`, `macro/src/syntax/discriminant.rs`, `macro/src/syntax/doc.rs`, `macro/src/syntax/error.rs`, `macro/src/syntax/file.rs`, `macro/src/syntax/ident.rs`, `macro/src/syntax/impls.rs`, `macro/src/syntax/improper.rs`, `macro/src/syntax/instantiate.rs`, `macro/src/syntax/mangle.rs`, `macro/src/syntax/map.rs`, `macro/src/syntax/mod.rs`, `macro/src/syntax/names.rs`, `macro/src/syntax/namespace.rs`, `macro/src/syntax/parse.rs`, `macro/src/syntax/pod.rs`, `macro/src/syntax/primitive.rs`, `macro/src/syntax/qualified.rs`, `macro/src/syntax/report.rs`, `macro/src/syntax/resolve.rs`, `macro/src/syntax/set.rs`, `macro/src/syntax/symbol.rs`, `macro/src/syntax/tokens.rs`, `macro/src/syntax/toposort.rs`, `macro/src/syntax/trivial.rs`, `macro/src/syntax/types.rs`, `macro/src/syntax/visit.rs`, `gen/src/include/cxx.h`, `gen/build/src/error.rs`, `gen/build/src/gen/block.rs`, `gen/build/src/gen/builtin.rs`, `gen/build/src/gen/cfg.rs`, `gen/build/src/gen/check.rs`, `gen/build/src/gen/error.rs`, `gen/build/src/gen/file.rs`, `gen/build/src/gen/fs.rs`, `gen/build/src/gen/ifndef.rs`, `gen/build/src/gen/include.rs`, `gen/build/src/gen/include/cxx.h`, `gen/build/src/gen/mod.rs`, `gen/build/src/gen/names.rs`, `gen/build/src/gen/namespace.rs`, `gen/build/src/gen/nested.rs`, `gen/build/src/gen/out.rs`, `gen/build/src/gen/write.rs`, `gen/build/src/syntax/atom.rs`, `gen/build/src/syntax/attrs.rs`, `gen/build/src/syntax/cfg.rs`, `gen/build/src/syntax/check.rs`, `gen/build/src/syntax/derive.rs`, `gen/build/src/syntax/discriminant.rs`, `gen/build/src/syntax/doc.rs`, `gen/build/src/syntax/error.rs`, `gen/build/src/syntax/file.rs`, `gen/build/src/syntax/ident.rs`, `gen/build/src/syntax/impls.rs`, `gen/build/src/syntax/improper.rs`, `gen/build/src/syntax/instantiate.rs`, `gen/build/src/syntax/mangle.rs`, `gen/build/src/syntax/map.rs`, `gen/build/src/syntax/mod.rs`, `gen/build/src/syntax/names.rs`, `gen/build/src/syntax/namespace.rs`, `gen/build/src/syntax/parse.rs`, `gen/build/src/syntax/pod.rs`, `gen/build/src/syntax/primitive.rs`, `gen/build/src/syntax/qualified.rs`, `gen/build/src/syntax/report.rs`, `gen/build/src/syntax/resolve.rs`, `gen/build/src/syntax/set.rs`, `gen/build/src/syntax/symbol.rs`, `gen/build/src/syntax/tokens.rs`, `gen/build/src/syntax/toposort.rs`, `gen/build/src/syntax/trivial.rs`, `gen/build/src/syntax/types.rs`, `gen/build/src/syntax/visit.rs`, `gen/cmd/src/gen/block.rs`, `gen/cmd/src/gen/builtin.rs`, `gen/cmd/src/gen/cfg.rs`, `gen/cmd/src/gen/check.rs`, `gen/cmd/src/gen/error.rs`, `gen/cmd/src/gen/file.rs`, `gen/cmd/src/gen/fs.rs`, `gen/cmd/src/gen/ifndef.rs`, `gen/cmd/src/gen/include.rs`, `gen/cmd/src/gen/include/cxx.h`, `gen/cmd/src/gen/mod.rs`, `gen/cmd/src/gen/names.rs`, `gen/cmd/src/gen/namespace.rs`, `gen/cmd/src/gen/nested.rs`, `gen/cmd/src/gen/out.rs`, `gen/cmd/src/gen/write.rs`, `gen/cmd/src/syntax/atom.rs`, `gen/cmd/src/syntax/attrs.rs`, `gen/cmd/src/syntax/cfg.rs`, `gen/cmd/src/syntax/check.rs`, `gen/cmd/src/syntax/derive.rs`, `gen/cmd/src/syntax/discriminant.rs`, `gen/cmd/src/syntax/doc.rs`, `gen/cmd/src/syntax/error.rs`, `gen/cmd/src/syntax/file.rs`, `gen/cmd/src/syntax/ident.rs`, `gen/cmd/src/syntax/impls.rs`, `gen/cmd/src/syntax/improper.rs`, `gen/cmd/src/syntax/instantiate.rs`, `gen/cmd/src/syntax/mangle.rs`, `gen/cmd/src/syntax/map.rs`, `gen/cmd/src/syntax/mod.rs`, `gen/cmd/src/syntax/names.rs`, `gen/cmd/src/syntax/namespace.rs`, `gen/cmd/src/syntax/parse.rs`, `gen/cmd/src/syntax/pod.rs`, `gen/cmd/src/syntax/primitive.rs`, `gen/cmd/src/syntax/qualified.rs`, `gen/cmd/src/syntax/report.rs`, `gen/cmd/src/syntax/resolve.rs`, `gen/cmd/src/syntax/set.rs`, `gen/cmd/src/syntax/symbol.rs`, `gen/cmd/src/syntax/tokens.rs`, `gen/cmd/src/syntax/toposort.rs`, `gen/cmd/src/syntax/trivial.rs`, `gen/cmd/src/syntax/types.rs`, `gen/cmd/src/syntax/visit.rs`, `gen/cmd/src/test.rs`, `gen/lib/src/gen/block.rs`, `gen/lib/src/gen/builtin.rs`, `gen/lib/src/gen/cfg.rs`, `gen/lib/src/gen/check.rs`, `gen/lib/src/gen/error.rs`, `gen/lib/src/gen/file.rs`, `gen/lib/src/gen/fs.rs`, `gen/lib/src/gen/ifndef.rs`, `gen/lib/src/gen/include.rs`, `gen/lib/src/gen/include/cxx.h`, `gen/lib/src/gen/mod.rs`, `gen/lib/src/gen/names.rs`, `gen/lib/src/gen/namespace.rs`, `gen/lib/src/gen/nested.rs`, `gen/lib/src/gen/out.rs`, `gen/lib/src/gen/write.rs`, `gen/lib/src/syntax/atom.rs`, `gen/lib/src/syntax/attrs.rs`, `gen/lib/src/syntax/cfg.rs`, `gen/lib/src/syntax/check.rs`, `gen/lib/src/syntax/derive.rs`, `gen/lib/src/syntax/discriminant.rs`, `gen/lib/src/syntax/doc.rs`, `gen/lib/src/syntax/error.rs`, `gen/lib/src/syntax/file.rs`, `gen/lib/src/syntax/ident.rs`, `gen/lib/src/syntax/impls.rs`, `gen/lib/src/syntax/improper.rs`, `gen/lib/src/syntax/instantiate.rs`, `gen/lib/src/syntax/mangle.rs`, `gen/lib/src/syntax/map.rs`, `gen/lib/src/syntax/mod.rs`, `gen/lib/src/syntax/names.rs`, `gen/lib/src/syntax/namespace.rs`, `gen/lib/src/syntax/parse.rs`, `gen/lib/src/syntax/pod.rs`, `gen/lib/src/syntax/primitive.rs`, `gen/lib/src/syntax/qualified.rs`, `gen/lib/src/syntax/report.rs`, `gen/lib/src/syntax/resolve.rs`, `gen/lib/src/syntax/set.rs`, `gen/lib/src/syntax/symbol.rs`, `gen/lib/src/syntax/tokens.rs`, `gen/lib/src/syntax/toposort.rs`, `gen/lib/src/syntax/trivial.rs`, `gen/lib/src/syntax/types.rs`, `gen/lib/src/syntax/visit.rs`.

## Axioms

What `#print axioms` says for every theorem of `MANIFEST.json`.

### No axioms (6 theorems)

* Verif.Gen: outputs_named
* Verif.Preamble: cxx_top, quoted_not_ascii
* Verif.Unwind: user_code_guarded
* Verif.Words: seen_same, strings_seen_partial

### `propext` (40 theorems)

* Verif.Build: firsts_distinct, link_denotes
* Verif.ByValue: named_string
* Verif.Cfg: merge_exact
* Verif.CxxString: let_cxx_string_partial, let_cxx_string_uninit
* Verif.Derive: defs_members, members_exact, struct_clone
* Verif.Discriminant: enum_neg_zero_panics, enum_neg_zero_refused, enum_neg_zero_wraps, enum_usize_unchecked
* Verif.Fits: builtin_by_value_implemented
* Verif.Header: write_unneeded
* Verif.Load: documented_refused, redeclaration_refused
* Verif.Mangle: taken_needed
* Verif.Parse: nested_pin_changed, unsafe_pointer_changed
* Verif.Pod: array_cycle_diverges
* Verif.Preamble: arg_bracketed, helpers_balance
* Verif.PtrTraits: ptr_compared_by_target, ptr_deref, ptr_hash, ptr_text, weak_text
* Verif.Repr: fn_layout_partial
* Verif.Stream: read_vectored_not_passed_on, stream_null, stream_partial
* Verif.Thread: traits_exact
* Verif.Toposort: array_cycle_accepted, array_field_out_of_order
* Verif.TypeEq: type_eq_not_reflexive
* Verif.Types: duplicates_order_dependent
* Verif.Unwind: reserve_overflow_unwinds
* Verif.Words: slices_same, strings_confused

### `Quot.sound` (1 theorems)

* Verif.Build: intern_returns

### `Quot.sound`, `propext` (71 theorems)

* Verif.Build: concurrent_link, interned_text, relativize_refuses, stale_link, statement_follows, validate_exact, write_completes, write_frame, written_file_vanishes
* Verif.Builtins: builtin_imports_defined, builtin_vec_exported, builtin_vector_by_value
* Verif.Cfg: flags_accepted
* Verif.CxxVector: cxx_vector_iteration
* Verif.Derive: cmp_lawful, cmp_lexicographic, derived_by_rust, enum_order, equal_hash, hash_linked, partialCmp_cmp, partialCmp_lawful, partialCmp_lexicographic
* Verif.Exception: error_moved_from_what_null, moved_from_error_thrown
* Verif.Gen: include_flag
* Verif.Header: cxx_has, cxx_proper
* Verif.Load: local_enum_taken
* Verif.Ordered: ordered_map_refines
* Verif.Out: openings_text
* Verif.Preamble: arg_quoted, cxx_provides
* Verif.PtrTraits: cxxString_laws, ptr_laws
* Verif.Qualified: attr_value_partial, bridge_args_exact, item_namespace_partial, print_roundtrip, quoted_exact, raw_namespace_kept, unquoted_exact
* Verif.Report: marks_parsed_text, marks_unique
* Verif.Repr: box_layout, opaque_layout, result_layout, smart_pointer_layout_partial, stack_string_fits, string_layout, vec_layout_partial, views_layout_partial
* Verif.RustSig: borrows_same
* Verif.Slice: slice_elements, slice_zero_size
* Verif.StrCmp: string_bytes_iterated
* Verif.Stream: read_vectored_partial, string_takes_all, string_writes
* Verif.Thread: cxx_type_traits, no_race, object_stays
* Verif.Throw: default_reports, imports_declared, support_noexcept, swallowed
* Verif.UniquePtr: unique_ptr_histories
* Verif.Unsafety: undeclared_rejected
* Verif.View: null_stopped
* Verif.Words: no_leak, one_owner

### `Classical.choice`, `Quot.sound`, `propext` (433 theorems)

* Verif.Abi: context_exists, cxx_function_abi_partial, nested_fn_pointer_disagrees, rust_function_abi, trampoline_abi_partial, unit_in_fn_pointer_panics, write_total_partial
* Verif.Assert: alias_across_bridges_partial, asserted_only_if_moved, declared_types_fit, moved_aliases_relocatable_partial, moved_aliases_trivial_partial, moved_in_fn_pointer, trivial_only_if_moved
* Verif.Build: build_spares_partial, builds_spare_partial, cfg_left_behind, cfg_lost_update, cfg_one_variable_partial, cfg_path_changed, cfg_stale_read, concurrent_write, confused_names, copy_exact, copy_found, copy_marked, copy_safe, empty_link, exports_arrive_partial, foreign_found_partial, fresh_clean, header_dirs_exact, header_found, inside_distinct, lines_lost, longer_prefix_reported, original_overwritten, outputs_inside, outputs_place, outside_collides, own_found_partial, prefix_escapes, relative_link, relative_only_names, relativize_cases, runtime_found, runtime_found_dep, source_deleted, source_found, stale_header, target_exact, target_given, target_kept, targets_agree, targets_kept_partial, unix_absolute, unused_links_exact, unused_prefix_partial, used_prefix_reported, write_exact, write_twice, write_untouched
* Verif.Build.TargetDemo: tag_separates
* Verif.ByValue: messages_counted, messages_exact
* Verif.Call: call_reaches_partial, callback_return_clash, error_clash, method_outside, throw_clash
* Verif.Cfg: cargo_exact, cargo_features, eval_open, eval_settled, eval_sound, feature_found_partial, flags_exact, hyphen_feature_missed, parse_exact, settled_decidable, strip_exact
* Verif.Cfg.Tree: found_in_trees, loads_all, order_lawful, trees_answer
* Verif.Check: accepted_exact, alias_by_value_recorded, impls_exact, mut_return_justified, mutable_alias_recorded, mutable_cxx_is_pinned, names_resolve, no_opaque_by_value_partial, opaque_by_value_in_fn_pointer, same_bridges, same_errors
* Verif.Conv: cxx_arguments_typed_partial, cxx_result_typed_partial, cxx_shim_arguments_typed_partial, cxx_shim_result_typed, pinned_string_mistyped, received_vec_of_str_mistyped, ref_vec_of_str_mistyped, returned_vec_of_str_mistyped, rust_arguments_typed_partial, rust_result_typed_partial, rust_shim_arguments_typed, rust_shim_result_typed, trampoline_typed_partial
* Verif.CxxString: cxx_string_histories, cxx_string_spec_deterministic
* Verif.CxxText: array_of_references, cxx_prototype_reads, fields_read, functions_read, keyword_as_name, pointers_read, rust_prototype_reads, slice_of_references, symbol_name, types_read, types_well_formed_partial
* Verif.CxxVector: cxx_vector_histories
* Verif.Derive: enum_debug, enum_derives, enum_in_patterns, linkable, operators_agree, partialCmp_not_transitive, struct_derives, symbols_agree
* Verif.Discriminant: enum_accept_iff_partial, enum_discriminant_values, enum_discriminants_fit_partial, inferred_repr_error_iff_partial, inferred_repr_is_first_fit_partial
* Verif.Doc: backslash_hides_code, carriage_return_is_code, doc_means_nothing_partial
* Verif.Exception: error_histories_partial, error_round_trip
* Verif.Fits: by_value_implemented, default_only_if_opaque
* Verif.Gen: bridge_rejected, bridges_found, build_then_command, command_cxx_header, command_outputs, command_then_build, command_writes_nothing, errors_one_by_one, generate_exactly, knows_less, knows_more, library_and_command, library_default, macro_exactly, reports_exactly, same_code, shebang_line
* Verif.Header: cxx_sections, write_exact, write_missing
* Verif.Improper: improper_exact, improper_order_independent
* Verif.Layout: check_enum_exact, enum_values_partial, enum_variants_complete, enums_written, large_values_have_no_literal, same_cxx_name_disagrees, struct_layout_partial, type_layout_partial
* Verif.Lifetimes: bare_rejected, instance_general, lifetimes_fine, type_general
* Verif.Load: load_accepts, load_complete, load_faithful_partial, load_needs_dump, load_representable, rust_names_distinct
* Verif.Mangle: functions_distinct_partial, guards_distinct, instantiation_members, instantiation_symbols_agree, namespaced_methods_collide, overloaded_methods_collide, root_namespace_clashes, root_namespace_names, runtime_disjoint_partial, std_vector_namespace_collides, symbol_determines_entity, symbol_exists
* Verif.Names: alias_then_struct, derived_twice, forbid_hidden, function_like_operator, function_like_type, method_like_function, methods_alike, methods_by_mutability, names_once_partial, primitive_captured, primitive_found_partial, type_found_partial, variants_alike
* Verif.Nested: bridge_declarations_exact, forward_declarations_exact, grouping_exact
* Verif.Once: alias_vec_missing, book_example, functions_support_apart, same_name_clashes, shared_function_clashes, support_once, supported, symbols_across
* Verif.Ordered: ordered_set_elements, ordered_set_refines, ordered_set_refines_on
* Verif.Out: blocks_balance, braces
* Verif.Panics: generator_panics_exact, macro_panics_exact, macro_runs_partial, raw_name_panics, unit_pointer_panics
* Verif.Parse: argument_names_clash, argument_names_partial, attributes_accepted, attributes_read, bare_self, items_accepted, items_exact, last_name_counts, named_self, safe_call_needs_unsafe, type_accepted, type_emitted, type_emitted_same_partial, unsafety_kept
* Verif.Placed: declarations_in_place
* Verif.Plain: keyword_breaks, names_partial, renamed_breaks
* Verif.Pod: plain_not_owning, pod_exact, pod_terminates_partial
* Verif.Preamble: asked_declared, blank_lost, bracketed_path_partial, bridge_helpers_declared, generated_headers_included, generated_helpers_declared, generated_new_included, headers_missing, headers_requested_partial, helpers_declared, include_accepts, includes_exact, incoherent_request, option_path, quoted_contained, quoted_path_changed, quoted_path_partial, quoted_verbatim, requested_included
* Verif.Prototype: cxx_texts_agree_partial, items_str, items_tidy, nested_fn_pointer_texts, rust_texts_agree, trampoline_texts_agree_partial
* Verif.Qualified: alias_verified_partial, raw_alias_panics, type_id_injective, type_id_items_exist
* Verif.Reasons: assertion_explains, error_explains, explanation_right
* Verif.Report: always_reported, causes_reported, errors_shown, hint_apt, hint_given, known_apart
* Verif.Repro: same_cxx, same_rust
* Verif.Runtime: builtin_declarations_fit, builtin_shared_ptr, builtin_unique_ptr, builtin_unique_ptr_vector, builtin_vec, builtin_vec_declarations_fit, builtin_vector, builtin_weak_ptr
* Verif.RustBox: box_histories
* Verif.RustSig: alias_replaced, decl_borrows_partial, decl_unclear, inside_declared_partial, shim_declared_partial
* Verif.RustString: spec_deterministic, string_c_str, string_histories, string_reserve_capacity
* Verif.RustVec: vec_copy_assign_throw, vec_histories_partial, vec_push_own_element, vec_reserve_capacity
* Verif.Several: alias_disturbs, apart_or_halved, cxx_call_partial, cxx_function_partial, cxx_lines_partial, file_accepted, halved_changes, halved_disagrees, instances_partial, returns_partial, rust_call_partial, rust_function_partial, rust_lines_partial, trampoline_partial, type_lines_partial
* Verif.SharedPtr: shared_ptr_histories
* Verif.Shim: cxx_call_balanced_partial, cxx_return, direct_plain, residue_leaks, rust_call_balanced, rust_return_partial
* Verif.Sizes: element_sizes_partial, elements_found_partial
* Verif.Slice: slice_at_and_null, slice_iteration_partial, slice_iterator_positions_partial
* Verif.StrCmp: str_operators_agree, str_order_signed_differs, str_order_total, string_operators_agree
* Verif.Strings: cxx_functions_fit, cxx_string_methods, missing_without_alloc, rust_functions_fit, string_members, text_members, view_members
* Verif.Stripped: calls_in_step, closed_partial, conditional_type, cxx_halves_agree_partial, exports_in_step, field_changes_abi, fields_in_step, instance_left_over, instances_expected_partial, off_type_breaks, rust_halves_agree_partial, strip_on, variants_in_step
* Verif.Throw: bridge_err_lands, bridge_never_across, bridge_throw_lands, entries_noexcept, err_lands, lands_once, never_across, throw_lands, wrappers_noexcept
* Verif.Thunk: box_members, cxx_declarations_fit, rust_declarations_fit, shared_ptr_methods, unique_ptr_methods, vec_members, vector_methods, weak_ptr_methods
* Verif.Together: defined_always, defined_once, two_sources_clash
* Verif.Together.Types: definition_suppressed, types_defined_once, unit_layout_partial
* Verif.Toposort: sort_terminates, structs_in_order_no_arrays_partial, structs_in_order_partial
* Verif.TypeEq: ptr_type_collected_twice, type_eq_iff, type_eq_laws_partial, type_eq_never_of_ptr_array, types_collected_once_partial
* Verif.Types: duplicates_exact, duplicates_order_partial
* Verif.Unit: array_before_element, declared_before_call, declared_before_use, defined_before_held_partial, file_written_partial, functions_offered, header_agrees, members_declared_partial, members_defined_partial, method_elsewhere, method_like_field, method_like_type, methods_clash, types_offered
* Verif.Unsafety: expansion_partial, exported_partial
* Verif.Unwind: panic_never_reaches_cxx_partial
* Verif.Utf8: debug_faithful, debug_to, display_lossy, display_to, from_utf8_iff, pieces_unique, str_utf8_gate, string_cstr_gate, string_lossy16_total, string_lossy_total, string_std_gate, string_utf16_gate, string_utf8_gate
* Verif.View: c_str_shown, chars16_shown, chars_shown, cstring16_shown, cstring_shown, slices_shown, std_string_shown
