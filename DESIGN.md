# Amanda in Lean 4: design

Subject: the amanda compiler (Python, `/repo/amanda/compiler`) and virtual
machine (Rust, `/repo/amanda/vm`) at the pinned commit. The code is read as
text; nothing is built or run. This file says what is modelled, how, and what
is trusted. `properties.jsonl` holds the property list, `MANIFEST.json` the
state of each property.

## 1. Trusted base

* Lean 4.33.0's kernel. Every property theorem depends on no axiom beyond
  `propext`, `Classical.choice` and `Quot.sound` (printed by
  `lean/Verif/Audit.lean`). No own axioms, no `sorry`, no `native_decide`, no
  `bv_decide`.
* The transcription of the source into Lean. Every definition cites the file
  and lines it models; simplifications are stated in that comment. To reduce
  transcription risk the model is executable: `lake env lean --run Verif/Conform.lean` in /verif/lean takes
  the 230 test programs of /repo/tests through the modelled lexer, parser, checker, code generator, image,
  loader and machine and compares the output with the one the test expects. 227 agree; the other three
  expect absolute paths of another machine.
* Python and Rust language semantics as used in the transcription: dict
  insertion order, `struct.pack`, `i64::checked_*`, `Vec`/`Rc` semantics,
  `isize`/`usize` casts on a 64-bit target.
* IEEE floating point is a parameter (type class `FloatOps`). No law about
  floats is assumed unless a statement carries `[LawfulFloatOps F]`. Its four
  laws are true of `f64`: an `i64` converts to 0.0 only from 0, what equals 0.0
  converts to 0, conversion to `i64` saturates, a text starting with a quote is
  not a number. `FloatModel.lean` gives an instance, so the laws are consistent.
* Unicode classification (`isalpha`, `isdigit`, `isalnum`, `isspace`), `int` and
  `float` of texts, and grapheme segmentation are parameters too (`PyCfg`).
  Theorems that need facts about them carry `py.Lawful`: the ASCII behaviour,
  letters and digits are alphanumeric, no letter is a digit, no blank is
  alphanumeric, `int` reads ASCII numerals of up to 4300 digits. `PyModel.lean`
  gives an instance, so these laws are consistent.

Not modelled: `compiler/compile.py` (the dead Python generator), the REPL-less
CLI argument parsing, C bindings (`libamanda`), memory reclamation (`Rc` drop),
stdout buffering, `mat` float functions beyond being opaque natives.

## 2. Shape of the model

| Lean module | models |
|---|---|
| `Bson` | `bindump.py`, reader half of `binload.rs` |
| `Opcode` | `OpCode`, `op_size`, `write_op_bytes`, `opcode.rs`, operand fetch of `vm.rs` |
| `Value` | `ama_value.rs`: values, `binop`, `cast`, display |
| `Vm` | `vm.rs`: frames, stack, every opcode of `run`; `registo.rs`, `module.rs` |
| `Builtins` | `embutidos.rs`, `mat.rs` |
| `Loader` | `build_module`, `Const::from_str`, `load_bin` of `binload.rs`, `run_module` of `lib.rs` |
| `Lexer` | `tokens.py`, `Lexer` of `parse.py` |
| `Syntax` | `ast.py` without the attributes filled in by the checker |
| `Parser` | `Parser` of `parse.py`, fed by the lexer; Python's recursion limit is not modelled |
| `Grammar` | specification: which syntax trees stand for programs |
| `Types` | `types/core.py`, `ops.py`, `symbols/base.py` |
| `Scope` | `Scope` of `symbols/core.py` and the visitor of `check/core.py`, `check/iguala.py`, `check/uniao.py` reduced to names: every visit, look-up, definition and entering or leaving of a scope. No types, fields or imports; what pattern compilation makes of an `iguala` is a parameter (`Plan`); `is_global` is set when a symbol is defined, not after its initialiser (check/core.py:492-493), which is not looked at in between |
| `ScopeSpec` | specification: lexical scoping over a list of frames |
| `ScopeMain`, `ScopeOut` | lemmas: visitor and specification agree; `out_id`s of the scopes around a use |
| `GenDense` | lemmas: the generator's tables of slots are numbered one by one |
| `Returns` | `has_return*` and the test of `validate_return` of `check/core.py`; which annotated bodies belong to a body |
| `Iguala` | `check/exhaustiveness.py`; patterns as `check/iguala.py` leaves them, whose own checks are hypotheses (`FlatArm`) |
| `IgualaSpec` | specification: values, matching, the first matching arm, what a decision tree selects |
| `IgualaFrame`, `IgualaFail`, `IgualaGroups`, `IgualaLits`, `IgualaTame`, `IgualaVars`, `IgualaTop`, `IgualaUnion`, `IgualaMain`, `IgualaTarget`, `IgualaMissing` | lemmas: what compiling rows leaves unchanged, failure leaves, literal cases, tame arms, fresh variables, unions, numbers and texts, missing patterns |
| `Transform` | `transform_escolha` of `transform.py`; `transform_call` and `transform_get` are in `Elaborate` |
| `Annot` | the annotated tree, symbols and scopes that `codegen.py` reads |
| `Codegen` | `ByteGen` of `codegen.py`: every `gen_` method; the field `emitted`, a record of `lineno` and `ip` at each `append_op`, is for specifications only and nothing reads it |
| `Compile` | `ByteGen.compile`: module dictionaries and the image |
| `Source`, `SourceWf`, `SourceProg` | specification: meaning of annotated programs, and the programs the compiler is claimed right for |
| `Typed`, `TypedSound`, `TypedProg` | specification: typing rules on annotated programs, written without the checker; proof that programs which keep to them never get stuck |
| `Frag`, `FragState`, `FragE`, `FragExpr`, `FragStep`, `FragS`, `FragTop`, `FragProg`, `FragOk`, `FragNest` | a part of the language given by its syntax (with `leia`, `leia_int`, `leia_real`, `escreva`, `escrevaln`, `txt_contem`, `tam`, `anexa`, `remova` of the library), and the proof that expressions, statements, functions and whole programs of it which the checker accepts keep to the typing rules; `FragOk` derives from that the conditions under which the generated code is proved right (C47); `FragNest` bounds the depth of scopes by the nesting of statements in the text, so that internal names can be told apart |
| `FragSafe`, `FragCalm`, `FragCalmTop` | which errors the checker ends with on expressions, statements, functions and whole programs of `Frag`: reported ones, and one known exception |
| `GenCalm`, `FragGen` | which exceptions the code generator ends with on programs that keep to the typing rules: those of numbers that do not fit the image |
| `Library` | lemmas: the checker's state after std/embutidos.ama, and accepted programs that import nothing |
| `LineTrees` | specification: all lines in a syntax tree are lines of a text |
| `ParseLines`, `CheckLines`, `ErrorFiles` | lemmas: the lines in parsed trees; the lines the checker takes up and names in errors, for every visit of the whole language; the files that loading imports names in errors |
| `CheckContext`, `ScopeTree` | lemmas: for every visit of the whole language, the place the checker comes back to and the scopes it defines names in; the scopes of whole programs |
| `PlaceSpec` | spec of C66: where `quebra`, `continua`, `retorna`, `alvo`, `produz` and functions may stand, on the trees given to the generator |
| `Placed`, `PlacedTree` | lemmas: the trees the checker makes, and what `transform` makes of them, keep to it |
| `SourceMono`, `SourceKeeps`, `SourceFuel` | lemmas: more fuel changes nothing; variables not assigned keep their value; runs that are out of fuel are inside many calls and rounds of loops |
| `SrcMap`, `GenLines` | lemmas: what a source map says about the history of appended instructions; in which order lines are taken up |
| `GenFrame`, `GenFits`, `GenTame`, `LinkGen` | lemmas: what code generation appends, which operands and constants it makes |
| `Exec`, `ExecIns`, `ExecOps`, `ExecGen` | lemmas: the machine running generated instructions |
| `SimExpr`, `SimCall`, `SimStmt`, `Sim` | the simulation of source programs by generated code |
| `LinkModule`, `LinkImage`, `LinkProg`, `LinkRun` | from the image to the loaded program, and the run of all modules |
| `Imports` | `parse(file)`, `visit_module`, `visit_usa`, `resolve_import`, `load_module`, `load_module_scoped`, `Analyzer.__init__` as far as imports go; the rest of the checker is a parameter (`Hooks`) |
| `ImportsSpec` | specification: import graph, cycles, order |
| `ImportsLemmas`, `ImportsOrder` | what loading maintains, that it ends, and in which order files are met |
| `Pipeline` | `run_file` and `main` of `__main__.py`, `throw_error` and `fmt_error` of `error.py`, `run_module` as Python sees it; the checker is a parameter |
| `Check`, `Analyzer` | the checker: `check/core.py`, `check/iguala.py`, `check/uniao.py`, `symbols/core.py`, `types/core.py`, with symbols and scopes as tables; the simplifications are listed at the head of `Check` |
| `Elaborate` | `transform.py` on the checker's trees, and the checker as a whole: `checkFile` fits `Pipeline` and `Imports` |
| `Conform` | no model and no proof: runs the whole model on the tests of the repository |

Executable functions return `Except`-style results: a Python exception, a Rust
panic and a reported Amanda error are different values, so "never crashes" is
expressible.

Property theorems live in `Verif/Props/*.lean`, one file per area, separate
from models and lemmas. Specifications used in the statements are small and
independent of the model helpers (`Int` arithmetic, `List` operations,
big-step meanings, first-match search).

## 3. Plan per property

* C01-C03: model `dumps` and the cursor-based reader over `List UInt8`-like
  bytes. Round trip by induction over the document tree, generalised over the
  bytes that follow; rejection characterised by an independent `Representable`
  predicate.
* C04, C05, C07: encoder and decoder of single instructions; induction over
  instruction lists; the opcode table is finite and checked completely.
* C06: invariant over code generation (labels created so far are either
  pending or patched to an instruction boundary), by induction over the AST.
* C08, C09: invariant of the insertion-ordered table; wrap-around shown as a
  negation with witness for the unchecked operand kinds.
* C10-C15: decision logic over `Int` with the 64-bit range.
* C16-C18: refinement of the `values`/`sp` pair to a list; step invariant for
  the frame stack.
* C19-C23: heap model (references to cells), frame conditions.
* C24, C28: lexer and `Const::from_str` composed; negations for f-string pieces
  and for escapes followed by quotes.
* C25: source map as generated vs `offset_to_line`.
* C26, C27, C29, C30: lexer as a total function over the remaining characters.
* C31, C32: parser with fuel; fuel adequacy gives termination; printing and
  parsing are inverse.
* C33: parser result of compound assignments; negation for record fields.
* C34-C36: type tables and structural recursion; value typing vs VM results.
* C37: big-step statement semantics vs `has_return`; negation for loops and
  `senaose`. `declared_returns` ties the hypothesis that the check passes to the checker of the whole language.
* C38, C46-C49: compiler correctness: the generator's final code and labels,
  the VM's step relation, and an independent source-level evaluator; forward
  simulation by induction on the evaluation.
* C39, C40: scope chains and slot identifiers.
* C41-C44: pattern compiler with its shared mutable rows.
* C45: transformed `se` vs first-match selection.
* C50, C51: depth-first loader over a finite import graph.
* C52: pipeline result to exit status; C54: lines counted by the lexer against lines of the text.
* C55, C56: type soundness in two halves: programs that keep to typing rules never get stuck (`TypedProg`), and
  what the modelled checker accepts keeps to them (`Frag*`); "stuck" is an outcome of its own in `Source`.
* C58: `Out.fuel` counts the calls and rounds of loops around the place where the fuel ran out. The machine takes
  at least one instruction for each (`Sim`), and the fuel is at most a fixed multiple of them (`SourceFuel`), so a
  program that runs out of every amount of fuel keeps the machine running for any number of instructions.
* C62: `Grammar` says which trees stand for programs, without the parser; by induction on the nesting of calls every
  function of the parser gives such a tree.
* C63: C58 and C55 together.  That accepted programs meet the conditions of C47 is derived from the typing (`ok_of_facts`), for the strict part of the fragment: no `quebra`/`continua` in a `para`, and functions without parameters and variables consist of changes, `mostra` and `retorna` only (both are necessary, see C47, C48), and no statement stands in more than nine bodies (`nestS`, a count on the syntax tree; the internal name `_r{depth}{number}_` can be read in two ways from ten on).
* C57, C59-C61: the modelled checker; for-all statements about single visits, whole programs as witnesses.
* C64: the parser puts only tokens of the text into trees (`ParseLines`), the checker takes up lines of such tokens only (`Lined`,
  `Anew`), `transform` reports nothing (`Hushed`), and loading imports keeps the module named in errors (`ErrorFiles`).
* C65: `Within` follows every visit from place to place, with what is known of the scopes it made; scopes that existed
  before are changed only where the statement declares something.  `Rigid` and `Goes` carry the shape of the tree of
  scopes through the transformation and the loading of imports.  (`Scope` proves the agreement with a specification on
  a checker reduced to names; C65 is about the checker with types, records, unions, methods and imports.)
* C66: the same `Within`, with the fact that the tree a visit returns is legal for the loop, function and nesting it was
  visited in (`Earns`); `Turns` carries this through the transformation, `Goes.stood` through the loading of imports.
* C67: `CutsTexts` states what unicode-segmentation promises (the pieces of a text are the text, none is empty); the
  rest is the machine step `OpIndexGet` and the two library functions, with `tam` kept as the `as i64` of a length.
* C68: `After` between two worlds is reflexive and transitive; every primitive of the machine, every library function and
  every instruction ends in a world after the one it began in (`Onto`), also when it fails; runs follow by induction.
* C69: `Alike` compares one step of the two machines: the checked one panics, or has read a line, or both agree; by C68 a
  line that was read is never put back, so a run that ends with all its input never read. The assertion after the
  loop of `run` (vm.rs:550-554) never fails for compiled programs of C47 (`halt_main`).
* C57 for `Frag`: `Safe` says that a step of the checker raises nothing unexpected; shown for every visit under the
  invariant (`Inv`) that the soundness proof maintains, so no second invariant is needed.  `Calm` says the same of a
  step of the code generator, shown along the typing derivation of the program.

Where the code violates a property, the violation is proved as a theorem with
a concrete witness (`*_violated`), the part that holds is proved as `*_partial`
and both are listed in section 4.

The meaning of programs in `Source` uses the model's operations on values (`binop`, `castVal`,
`constOfStr`, `indexGet`), whose own meaning is the subject of C10-C15, C19, C27 and C28. It says nothing
about programs that get stuck (something the checker is there to prevent), and so do the theorems of C46-C49;
programs that never end are the subject of C58.

Entering a block takes away the values of the variables declared in it (`clear`). The generated code does not do
that: sibling blocks of a function share slots (`out_id` is made of the depth and the number in the scope). The claim is made for
programs in which a variable is used only in the block it belongs to (`Wf.isLocal`) and in which variables with one
internal name are never visible at the same time (`Prog.Ok.outIds`, for the variables outside the library, whose functions are native); the typing rules ask for the same
(`Apart`).

## 4. Disagreements between code and properties

Each entry names a property of properties.jsonl that the code breaks, the theorem that shows it on a
concrete input (`_violated`), and the part that holds (`_partial`).

- C09: two-byte operands (local slots, record indices) wrap modulo 65536.
  `local_slot_overflow_violated`; `operand_overflow_rejected_partial`.
- C17: a function with neither parameters nor locals has base pointer -1, so `Return` drops nothing
  and values left by its expression statements stay on the caller's stack.
  `call_leaves_callee_values_violated`; `call_restores_caller_partial`.
- C20: `build_vec` clones the inner list of references, so from three dimensions on the innermost
  vectors are shared. `vec_independent_violated`; `vec_independent_1d_partial`,
  `vec_independent_2d_partial`.
- C24: the literal pieces of a format string become constants without quotes, which the loader reads as
  numbers, truth values or `nulo` where it can, takes quotes from, and panics on when the first
  character takes more than one byte. `fstring_text_violated`, `fstring_bytes_violated`;
  `fstring_value_partial`, `fstring_code_partial`.
- C26: `isdigit` accepts characters such as `²` that `int` refuses, so lexing can end in a Python
  `ValueError`. `lexing_ends_violated`; `lexing_ends_partial`, `lexing_ends_ascii`.
- C28: after one escape was read, the following attempts look at the next characters without
  checking for a backslash, so a quote two places after an escape is misread.
  `escaped_literal_violated`; `plain_literal`, `escaped_literal_partial`.
- C29: line breaks inside string literals are not counted. `token_lines_violated`;
  `token_lines_partial`.
- C32: an empty format string (`IndexError`), a constant pattern that is neither integer nor text
  (`NotImplementedError`) and the numerals of C26 end the parser with an uncaught exception.
  `parsing_ends_violated`; `parsing_ends_partial`, `parsing_ends_plain`.
- C33: `x.f op= e` is read as `x.f = e`. `compound_field_violated`; `compound_assignment_partial`.
- C34: an `int` is accepted for any generic registo with argument `int`; a generic registo without a
  parameter called `T` ends the checker in a `KeyError`; types of the same name in two modules are
  equal; `indef` and `indef?` promote to each other. `assignability_violated`,
  `type_equality_violated`, `promotion_both_ways_violated`; `assignability_partial`,
  `type_equality_partial`, `promotion_one_way_partial`.
- C35: equality of registos, of `indef` with a basic type and of an optional `nulo` crash the VM; `//`
  on reals gives an integer; unary `+` has no instruction; negating the least integer crashes a
  debug build. `operators_violated`; `operators_sound_partial`, `unary_sound_partial`.
- C36: `:> int` on an `indef` holding `nulo` or a registo, and every `:> T?`, crash the VM.
  `conversions_violated`; `conversions_sound_partial`.
- C37: `has_return` takes a loop whose body returns for one that always returns, and does not look at
  `senaose` branches. Such functions come to their end and deliver `falso`.
  `function_returns_violated`; `function_returns_partial`.
- C38: `gen_para` sets no targets for `quebra` and `continua`, so inside a `para` they act on the
  enclosing `enquanto`. `quebra_innermost_violated`, `continua_innermost_violated`;
  `quebra_code_partial`, `continua_code_partial`.
- C39: a method is defined under its bare name in the global scope and replaces a function of that name;
  the generator looks a called name up again, in the scope at run of `gen`, and can end in a `KeyError`;
  the initialiser of a variable is rejected when it begins with the variable's own name, even as a field.
  `method_name_violated`, `callee_again_violated`, `member_init_rejected`; `names_resolve_partial`,
  `redeclaration_rejected_partial`, `inner_declarations_stay_inside`.
- C40: `out_id`s run depth and number together (`_r110_`); the hidden variables of an `iguala` are named
  like other `out_id`s and like those of other `iguala`s, and `declare_local` then hands out a slot twice;
  variables of arms have their bare name as `out_id`. `digits_violated`, `hidden_name_violated`,
  `iguala_slots_violated`, `arm_names_violated`; `locals_separate_partial`, `tables_dense_partial`.
- C41: rows are shared and changed while cases are compiled, a literal whose index is 0 counts as not
  tested before, and rows that do not test a number or text go behind those that do: a later arm can be
  taken, even one that does not match. `iguala_first_arm_violated`; `iguala_first_arm_partial`.
- C42: for the same reason an `iguala` can be accepted though some value has no arm.
  `iguala_exhaustive_violated`; `iguala_exhaustive_partial`.
- C43: a rejected `iguala` does have an unmatched value (`rejected_iguala_unmatched`), but the listed
  patterns can describe matched values too, and texts inside variants end the listing in a
  `NotImplementedError`. `listed_patterns_violated`; `listed_patterns_partial`.
- C44: the code of a case that names no parts of its subject leaves the subject on the stack, below the
  value; no code at all is generated for the fallback of a switch. `iguala_leaves_subject_violated`,
  `iguala_fallback_violated`; `iguala_code_partial`.
- C45: the selector is evaluated again for every case that is tried, and the blocks of an `escolha` are
  not transformed, so method calls in them take a field and crash. `escolha_first_match_violated`,
  `escolha_blocks_violated`; `escolha_first_match_partial`.
- C46, C47 (outside the fragment): an assignment used as an operand pushes nothing; a variable of another
  module is assigned under the running module; `x.f = y.g` does not read `y.g`.
  `assignment_value_violated`, `foreign_assignment_violated`, `field_to_field_violated`.
- C48: a function without parameters and locals leaves the values of its expression statements among the
  caller's operands; a call at the top level of an imported module returns into the main module.
  `call_keeps_operands_violated`, `call_in_import_violated`; `call_code_partial`.
- C50: the builtin file is analysed again for every module imported with an alias or for items; the file of
  the program is not among `imports` and is analysed a second time when it is imported; a path with braces
  turns the error into a `KeyError`, because messages are formatted twice. `builtin_again_violated`,
  `main_again_violated`, `braces_violated`; `imports_terminate`, `cyclic_rejected`, `cyclic_error_sound`,
  `cyclic_error_iff`, `file_analysed_once_partial`.
- C51: modules run in the order in which they were met, so a module runs before those that only it
  imports. `sole_importer_runs_first`, `import_order_violated`; `imports_before_main_partial`,
  `imports_ready_partial`.
- C25: `src_map` keeps one range per line, from its first to its last instruction, and `offset_to_line` takes
  the first range that contains the offset. Code of a line taken up between two pieces of code of an earlier line
  is therefore never found (`revisited_line_wrong`): bodies of `para` loops with `inc` (`runtime_line_violated`),
  everything between code on line 1 and a text with values in braces, whose tokens all carry line 1
  (`text_line_violated`). The frames an error went through are looked up in the map of the module of the innermost
  one (`caller_line_violated`). What holds: `failing_line` and `found_line` say exactly which line is named, for all
  programs; `runtime_line_partial` that it is the right one in modules generated in the order of their lines.
- C52: `throw_error` calls `sys.exit()` without an argument: every file with a syntax error, and every file
  the checker rejects with an error about one of its lines, leaves status 0.
- C53: `leia` removes the line feed inside `debug_assert!`, which a release build (the distributed
  executable made by setup.py) drops; `leia_int` then rejects every complete line. `leia_int_violated`; `leia_reads_a_line_partial`.
- C55: the checker accepts programs that reach operations without meaning: `accepted_stuck_violated` and
  `never_stuck_violated` show a variable used in its own initial value, elements and values of options used without promotion,
  `//` on reals (an int typed `real`) and two methods with one name. What holds: `accepted_std_partial`, for a part of the language.
- C56: a value assigned to an element is not promoted, so an `int` reaches a variable declared `real`.
  `variable_type_violated`; `variables_keep_types_partial`.
- C57: the checker reads `.tag` of types that have none, the transformation adds the parameter `alvo` only to
  methods that are called. `condition_raises_violated`, `checker_raises_violated`. The code generator writes the number of
  elements as one byte and raises `ValueError` for 256: `long_vector_violated`. What holds: `checker_reports_partial`,
  `accepted_compiles_partial`.
- C59: methods become functions known by their bare names, and the last one declared is called for all types.
  `method_of_type_violated`; `methods_kept_apart_partial`.
- C60: `usa "p"` does nothing when `p` was loaded for an alias or a list of names. `reimport_violated`;
  `items_available_partial`.
- C61: `visit_indexset` asks whether the element, not the vector, can be changed by an index: texts are refused,
  records, unions and options have no `.tag`. `text_element_violated`, `record_element_violated`;
  `element_settable_partial`.
- C62: an assignment to an element counts as assignable (ast.py:459-460), so `v[0] = 1 += 2` assigns to an assignment;
  the checker then raises `AttributeError`. `parsed_tree_violated`; `parsed_tree_partial` for everything else.
- C65: `make_func_symbol` defines the bare name of a method in the scope of the module, unchecked, so after
  `met P::f(alvo)` a function `f` declared before can no longer be called and a variable `f` can no longer be declared.
  `method_name_violated`; `stmt_scoping_partial` for everything else.
- C66: the blocks of arms that can not be reached are never visited, so misplaced statements (and any other mistake) in
  them are accepted. `unreached_placement_violated`; `placement_partial` for everything that is given to the generator.
- C64: the expressions of a format string are read after its escapes, so a `\n` there counts as a line and errors
  name lines after the end of the file; the error that the alias of an import is in use has the line of the import
  but the name of the imported file. In both cases the process ends with `AssertionError` when there is no such line.
  `format_line_violated`, `alias_file_violated`; `error_line_partial`, `rejected_reported_partial`.
- C69: as `leia` removes the line feed inside `debug_assert!`, `mostra leia("")` shows one line feed more in a release build.
  `builds_agree_violated`; `builds_agree_partial` for every run that does not panic and reads nothing.
