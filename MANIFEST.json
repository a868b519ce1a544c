{
 "claims": [
  {
   "property": "C01",
   "status": "proved",
   "theorems": [
    "Amanda.Bson.image_round_trip"
   ],
   "note": ""
  },
  {
   "property": "C02",
   "status": "proved",
   "theorems": [
    "Amanda.Bson.dumps_accepts_iff",
    "Amanda.Bson.dumps_size"
   ],
   "note": ""
  },
  {
   "property": "C03",
   "status": "proved",
   "theorems": [
    "Amanda.Bson.value_self_delimiting"
   ],
   "note": ""
  },
  {
   "property": "C04",
   "status": "proved",
   "theorems": [
    "Amanda.instruction_round_trip",
    "Amanda.program_round_trip"
   ],
   "note": ""
  },
  {
   "property": "C05",
   "status": "proved",
   "theorems": [
    "Amanda.opcode_tables_agree"
   ],
   "note": ""
  },
  {
   "property": "C06",
   "status": "proved",
   "theorems": [
    "Amanda.jumps_land_on_instructions"
   ],
   "note": "all statements and expressions of the generator's input; a quebra outside any loop fails in the generator"
  },
  {
   "property": "C07",
   "status": "proved",
   "theorems": [
    "Amanda.offsets_are_exact",
    "Amanda.function_entry_exact"
   ],
   "note": ""
  },
  {
   "property": "C08",
   "status": "proved",
   "theorems": [
    "Amanda.const_index_selects",
    "Amanda.name_index_selects",
    "Amanda.image_tables_match"
   ],
   "note": ""
  },
  {
   "property": "C09",
   "status": "partial",
   "theorems": [
    "Amanda.operand_overflow_rejected_partial",
    "Amanda.local_slot_overflow_violated"
   ],
   "note": "one and eight byte operands are checked; two-byte operands (local slots, record indices) wrap silently, shown by a witness"
  },
  {
   "property": "C10",
   "status": "proved",
   "theorems": [
    "Amanda.int_arith_exact"
   ],
   "note": ""
  },
  {
   "property": "C11",
   "status": "proved",
   "theorems": [
    "Amanda.int_division_law",
    "Amanda.int_division_min"
   ],
   "note": ""
  },
  {
   "property": "C12",
   "status": "proved",
   "theorems": [
    "Amanda.zero_divisor_stops",
    "Amanda.nonzero_divisor_no_zero_error"
   ],
   "note": "a real divisor of // is truncated first, see floordiv_truncates_real_divisor"
  },
  {
   "property": "C13",
   "status": "proved",
   "theorems": [
    "Amanda.int_comparisons",
    "Amanda.neq_is_negation"
   ],
   "note": ""
  },
  {
   "property": "C14",
   "status": "proved",
   "theorems": [
    "Amanda.int_texto_int",
    "Amanda.parseI64_iff",
    "Amanda.texto_to_int"
   ],
   "note": ""
  },
  {
   "property": "C15",
   "status": "proved",
   "theorems": [
    "Amanda.mixed_as_converted"
   ],
   "note": ""
  },
  {
   "property": "C16",
   "status": "proved",
   "theorems": [
    "Amanda.value_stack_is_lifo"
   ],
   "note": ""
  },
  {
   "property": "C17",
   "status": "partial",
   "theorems": [
    "Amanda.call_restores_caller_partial",
    "Amanda.call_leaves_callee_values_violated"
   ],
   "note": "holds for functions that reserve at least one slot; a function with no parameter and no local leaves its temporaries on the caller's stack, shown by a witness"
  },
  {
   "property": "C18",
   "status": "proved",
   "theorems": [
    "Amanda.frames_bounded",
    "Amanda.call_at_limit_reported"
   ],
   "note": ""
  },
  {
   "property": "C19",
   "status": "proved",
   "theorems": [
    "Amanda.vector_read",
    "Amanda.vector_write"
   ],
   "note": ""
  },
  {
   "property": "C20",
   "status": "partial",
   "theorems": [
    "Amanda.vec_shape",
    "Amanda.vec_independent_1d_partial",
    "Amanda.vec_independent_2d_partial",
    "Amanda.vec_independent_violated"
   ],
   "note": "shape proved for all dimension lists; independence holds up to two dimensions and fails from three on, shown by a witness"
  },
  {
   "property": "C21",
   "status": "proved",
   "theorems": [
    "Amanda.vectors_are_lists",
    "Amanda.size_is_length"
   ],
   "note": ""
  },
  {
   "property": "C22",
   "status": "proved",
   "theorems": [
    "Amanda.record_build",
    "Amanda.record_read",
    "Amanda.record_write"
   ],
   "note": ""
  },
  {
   "property": "C23",
   "status": "proved",
   "theorems": [
    "Amanda.option_value",
    "Amanda.option_value_or",
    "Amanda.option_is_null"
   ],
   "note": ""
  },
  {
   "property": "C24",
   "status": "partial",
   "theorems": [
    "Amanda.fmtSplit_source",
    "Amanda.fstring_value_partial",
    "Amanda.fstring_code_partial",
    "Amanda.fstring_text_violated",
    "Amanda.fstring_bytes_violated"
   ],
   "note": "holds when no literal piece reads as a number, truth value or nulo, begins with a quote or with a character of more than one byte; otherwise the piece is changed or the image does not load, shown by witnesses"
  },
  {
   "property": "C25",
   "status": "partial",
   "theorems": [
    "Amanda.Lines.runtime_line_partial",
    "Amanda.Lines.failing_line",
    "Amanda.Lines.found_line",
    "Amanda.Lines.written_once",
    "Amanda.Lines.written_everywhere",
    "Amanda.Lines.revisited_line_wrong",
    "Amanda.Lines.runtime_line_violated",
    "Amanda.Lines.text_line_violated",
    "Amanda.Lines.caller_line_violated"
   ],
   "note": "the line named is characterised for every program and every failing instruction; it is the right one in modules whose nodes are generated in the order of their lines, and a line taken up within another one is never named, so the claim is false there, shown by witnesses. Calls with all 1000 frames in use are left out"
  },
  {
   "property": "C26",
   "status": "partial",
   "theorems": [
    "Amanda.lexing_ends_partial",
    "Amanda.lexing_ends_ascii",
    "Amanda.lexing_ends_violated"
   ],
   "note": "every text is divided into tokens up to EOF or ends in a lexical error, unless a numeral is one that int refuses (Python ValueError, shown by a witness); never for ASCII texts with numerals of at most 4300 digits"
  },
  {
   "property": "C27",
   "status": "proved",
   "theorems": [
    "Amanda.tokens_lex_back"
   ],
   "note": "numerals of up to 4300 digits, the most Python's int reads"
  },
  {
   "property": "C28",
   "status": "partial",
   "theorems": [
    "Amanda.plain_literal",
    "Amanda.escaped_literal_partial",
    "Amanda.escaped_literal_violated"
   ],
   "note": "proved for literals without backslashes and for escapes with no quote two characters after; otherwise characters are lost, shown by a witness"
  },
  {
   "property": "C29",
   "status": "partial",
   "theorems": [
    "Amanda.token_lines_partial",
    "Amanda.token_lines_violated",
    "Amanda.token_line_exists"
   ],
   "note": "holds when no string literal contains a line break; such line breaks are not counted, shown by a witness"
  },
  {
   "property": "C30",
   "status": "proved",
   "theorems": [
    "Amanda.word_token",
    "Amanda.symbol_token"
   ],
   "note": ""
  },
  {
   "property": "C31",
   "status": "proved",
   "theorems": [
    "Amanda.precedence",
    "Amanda.expression_read_back"
   ],
   "note": "texts of operator trees over numerals and names; for tokens also calls, indices, members and redundant parentheses"
  },
  {
   "property": "C32",
   "status": "partial",
   "theorems": [
    "Amanda.parsing_ends_partial",
    "Amanda.parsing_ends_plain",
    "Amanda.parsing_tokens_end_partial",
    "Amanda.parsing_ends_violated"
   ],
   "note": "every text gives a tree or a reported error, or one of three uncaught Python exceptions (shown by witnesses); the last never for ASCII texts without iguala and format strings. Python's recursion limit is not modelled"
  },
  {
   "property": "C33",
   "status": "partial",
   "theorems": [
    "Amanda.compound_assignment_partial",
    "Amanda.compound_field_violated"
   ],
   "note": "same tree as the long form for variables and vector elements; for record fields the operator is dropped, for every target and value"
  },
  {
   "property": "C34",
   "status": "partial",
   "theorems": [
    "Amanda.type_equality_partial",
    "Amanda.type_equality_violated",
    "Amanda.assignability_partial",
    "Amanda.assignability_violated",
    "Amanda.promotion_one_way_partial",
    "Amanda.promotion_both_ways_violated"
   ],
   "note": "proved for types whose only generic part is Opcao (equality for all generic types); fails for other generic registos, for declarations of the same name in two modules and between indef and indef?, shown by witnesses"
  },
  {
   "property": "C35",
   "status": "partial",
   "theorems": [
    "Amanda.operators_sound_partial",
    "Amanda.null_comparison_sound",
    "Amanda.unary_sound_partial",
    "Amanda.operators_violated"
   ],
   "note": "holds on int, real, bool and texto and for comparisons with nulo; fails for equality of registos, of indef and of optional values, for // on reals, unary + and the negation of the least integer"
  },
  {
   "property": "C36",
   "status": "partial",
   "theorems": [
    "Amanda.conversions_sound_partial",
    "Amanda.conversions_violated"
   ],
   "note": "holds between basic types and for indef values with a type the VM can name; fails for indef holding nulo or a registo and for conversions to T?"
  },
  {
   "property": "C37",
   "status": "partial",
   "theorems": [
    "Amanda.function_returns_partial",
    "Amanda.function_returns_violated",
    "Amanda.Check.declared_returns"
   ],
   "note": "for bodies without retorna in loops and whose senaose branches pass the check too; otherwise an accepted function can fall off its end, shown by witnesses"
  },
  {
   "property": "C38",
   "status": "partial",
   "theorems": [
    "Amanda.quebra_ends_loop",
    "Amanda.continua_restarts_loop",
    "Amanda.quebra_code_partial",
    "Amanda.continua_code_partial",
    "Amanda.quebra_innermost_violated",
    "Amanda.continua_innermost_violated"
   ],
   "note": "proved for enquanto, meaning and code; in a para inside an enquanto both act on the enquanto, shown by witnesses"
  },
  {
   "property": "C39",
   "status": "partial",
   "theorems": [
    "Amanda.Names.names_resolve_partial",
    "Amanda.Names.redeclaration_rejected_partial",
    "Amanda.Names.inner_declarations_stay_inside",
    "Amanda.Names.method_name_violated",
    "Amanda.Names.callee_again_violated",
    "Amanda.Names.member_init_rejected"
   ],
   "note": "the checker's visitor against lexical scoping, for programs without the compiler's own names and method names that hide others; names of methods, called names looked up again by the generator and some initialisers break the claim, shown by witnesses"
  },
  {
   "property": "C40",
   "status": "partial",
   "theorems": [
    "Amanda.Names.locals_separate_partial",
    "Amanda.Names.tables_dense_partial",
    "Amanda.Names.slots_apart",
    "Amanda.Names.iguala_slots_violated",
    "Amanda.Names.digits_violated",
    "Amanda.Names.arm_names_violated",
    "Amanda.Names.hidden_name_violated"
   ],
   "note": "up to nine blocks, names other than the compiler's own, and code without iguala cases that take out parts; beyond that locals share slots, shown by witnesses"
  },
  {
   "property": "C41",
   "status": "partial",
   "theorems": [
    "Amanda.Iguala.iguala_first_arm_partial",
    "Amanda.Iguala.iguala_first_arm_violated",
    "Amanda.Iguala.tame_of_tags",
    "Amanda.Iguala.tame_of_lits"
   ],
   "note": "for tame arms, among them all that test only variants and numbers or texts followed by names, on targets of every type; for other arms the claim is false, shown by witnesses"
  },
  {
   "property": "C42",
   "status": "partial",
   "theorems": [
    "Amanda.Iguala.iguala_exhaustive_partial",
    "Amanda.Iguala.iguala_exhaustive_violated"
   ],
   "note": "for tame arms; for other arms the claim is false, shown by a witness"
  },
  {
   "property": "C43",
   "status": "partial",
   "theorems": [
    "Amanda.Iguala.rejected_iguala_unmatched",
    "Amanda.Iguala.listed_patterns_partial",
    "Amanda.Iguala.listed_patterns_violated"
   ],
   "note": "a rejected list of arms leaves a value unmatched, for all arms; the listed patterns are exactly the unmatched variants if arms test only variants, otherwise the claim is false, shown by witnesses"
  },
  {
   "property": "C44",
   "status": "partial",
   "theorems": [
    "Amanda.iguala_code_partial",
    "Amanda.iguala_leaves_subject_violated",
    "Amanda.iguala_fallback_violated"
   ],
   "note": "no code is generated for the fallback of a switch, shown for all switches and by a run; in runs that take a case the value of the selected arm is on top and the stack below is kept; nothing is in between if every case names parts of its subject and no arm is left early, otherwise the subject may stay in between, shown by a witness"
  },
  {
   "property": "C45",
   "status": "partial",
   "theorems": [
    "Amanda.escolha_first_match_partial",
    "Amanda.firstEqual_unique",
    "Amanda.escolha_first_match_violated",
    "Amanda.escolha_blocks_violated"
   ],
   "note": "when evaluating the selector and the values of the cases changes nothing; the selector is evaluated again for every case tried and blocks are not transformed, shown by witnesses"
  },
  {
   "property": "C46",
   "status": "proved",
   "theorems": [
    "Amanda.expression_code_correct",
    "Amanda.assignment_value_violated"
   ],
   "note": "the fragment is okE and cleanE of SourceWf: all expression forms; assignments not as operands, fields read outside the right of a field assignment, iguala whose cases all name parts; for assignments as operands the claim is false, shown by a witness. Literals, operators and conversions on values are those of Value, specified in C10-C15 and C27-C28"
  },
  {
   "property": "C47",
   "status": "proved",
   "theorems": [
    "Amanda.statements_code_correct",
    "Amanda.compiled_program_correct",
    "Amanda.foreign_assignment_violated",
    "Amanda.field_to_field_violated"
   ],
   "note": "the fragment is okSs of SourceWf: all statement forms; variables of other modules are only read, quebra and continua outside para. For code outside it the claim can be false, shown by witnesses. Variables of sibling blocks may share an internal name. Runs that end; the others are in C58"
  },
  {
   "property": "C48",
   "status": "partial",
   "theorems": [
    "Amanda.call_code_partial",
    "Amanda.call_code_limit",
    "Amanda.compiled_program_correct",
    "Amanda.call_keeps_operands_violated",
    "Amanda.call_in_import_violated"
   ],
   "note": "mutually recursive functions to any depth; not for calls at the top level of imported modules, nor when a function without parameters and locals leaves values of expression statements behind; both shown by witnesses"
  },
  {
   "property": "C49",
   "status": "proved",
   "theorems": [
    "Amanda.para_runs_range",
    "Amanda.para_code_runs_range",
    "Amanda.paraParts_const",
    "Amanda.paraParts_var",
    "Amanda.mem_paraRange",
    "Amanda.length_paraRange"
   ],
   "note": "bound and increment are evaluated each round, so they must keep their value; after the last round the variable may overflow, which is reported"
  },
  {
   "property": "C50",
   "status": "partial",
   "theorems": [
    "Amanda.Imports.imports_terminate",
    "Amanda.Imports.cyclic_rejected",
    "Amanda.Imports.cyclic_error_sound",
    "Amanda.Imports.cyclic_error_iff",
    "Amanda.Imports.file_analysed_once_partial",
    "Amanda.Imports.embutidos_plain",
    "Amanda.Imports.builtin_again_violated",
    "Amanda.Imports.main_again_violated",
    "Amanda.Imports.braces_violated"
   ],
   "note": "termination and the cycles proved for every finite set of files whose paths have no braces; each file but the builtin one is analysed once in accepted programs; the builtin file and, in rejected programs, the program's own file are analysed again, shown by witnesses. The rest of the checker is a parameter"
  },
  {
   "property": "C51",
   "status": "partial",
   "theorems": [
    "Amanda.Imports.imports_before_main_partial",
    "Amanda.Imports.imports_ready_partial",
    "Amanda.Imports.sole_importer_runs_first",
    "Amanda.import_order_violated"
   ],
   "note": "the program runs after all it imports, and programs that import in dependency order are right; a module that alone imports another always runs before it, shown for all such programs and by a run"
  },
  {
   "property": "C52",
   "status": "partial",
   "theorems": [
    "Amanda.Pipeline.exit_status_partial",
    "Amanda.Pipeline.accepted_status",
    "Amanda.Pipeline.source_status",
    "Amanda.Pipeline.syntax_error_status",
    "Amanda.Pipeline.check_error_status",
    "Amanda.Pipeline.exit_status_violated"
   ],
   "note": "for accepted programs status 0 means running to the end, for every program; every file rejected with a reported error also leaves status 0, so the property fails for all of them. The checker is a parameter"
  },
  {
   "property": "C53",
   "status": "partial",
   "theorems": [
    "Amanda.leia_reads_a_line_partial",
    "Amanda.leia_int_violated"
   ],
   "note": "prompt and consumption of one line proved; in a release build (the distributed executable made by setup.py) the line feed stays in the result, so leia_int rejects every complete line"
  },
  {
   "property": "C54",
   "status": "proved",
   "theorems": [
    "Amanda.syntax_error_line",
    "Amanda.lineOf_iff"
   ],
   "note": "for every text; the line may be too small after a string that spans lines (C29)"
  },
  {
   "property": "C55",
   "status": "partial",
   "theorems": [
    "Amanda.Check.accepted_never_stuck_partial",
    "Amanda.Check.accepted_std_partial",
    "Amanda.Source.typed_never_stuck",
    "Amanda.Check.accepted_stuck_violated",
    "Amanda.Check.never_stuck_violated"
   ],
   "note": "every accepted program of a part of the language given by its syntax (Frag: scalars, vectors, functions, recursion, loops, top-level declarations, input, output and growing and measuring vectors by the functions of the library; no records, unions, options, methods, imports or vec) never gets stuck, with the real library; outside it accepted programs get stuck, shown by witnesses"
  },
  {
   "property": "C56",
   "status": "partial",
   "theorems": [
    "Amanda.Check.variables_keep_types_partial",
    "Amanda.Check.variable_type_violated"
   ],
   "note": "the variables declared at the top level of programs of the same part of the language; elements assigned without promotion break it elsewhere, shown by a witness"
  },
  {
   "property": "C57",
   "status": "partial",
   "theorems": [
    "Amanda.Check.checker_reports_partial",
    "Amanda.Check.checker_reports_flat",
    "Amanda.Check.accepted_compiles_partial",
    "Amanda.Check.process_raises_partial",
    "Amanda.Check.process_ends_partial",
    "Amanda.Check.condition_raises_violated",
    "Amanda.Check.checker_raises_violated",
    "Amanda.Check.long_vector_violated"
   ],
   "note": "for every program of Verif.Frag the checker accepts or reports an error, except that a condition that is a vector raises AttributeError; the code generator compiles every accepted strict program of Verif.Frag, except that it raises one of five exceptions when a number does not fit its place in the image, such as the number of elements of a vector of 256; every se or enquanto on a value that is not of a primitive type does so, for all programs; further witnesses. The parts of the language outside Verif.Frag are not covered by the positive part"
  },
  {
   "property": "C58",
   "status": "proved",
   "theorems": [
    "Amanda.compiled_program_endless",
    "Amanda.compiled_program_exact",
    "Amanda.Source.Prog.eval_rounds"
   ],
   "note": "for the programs of C47 and C48; a program that gets stuck in the source has no meaning there and is left out. Nothing is said about the output of a program that runs forever"
  },
  {
   "property": "C59",
   "status": "partial",
   "theorems": [
    "Amanda.Check.methods_kept_apart_partial",
    "Amanda.Check.method_of_type_violated"
   ],
   "note": "the tables the checker looks methods up in keep types apart; the code generator knows functions by their names alone, so the last of several methods with one name is run, shown by a witness"
  },
  {
   "property": "C60",
   "status": "partial",
   "theorems": [
    "Amanda.Check.items_available_partial",
    "Amanda.Check.reimport_violated"
   ],
   "note": "lists of names proved; importing a whole module that was imported before in part adds nothing, shown by a witness"
  },
  {
   "property": "C61",
   "status": "partial",
   "theorems": [
    "Amanda.Check.element_settable_partial",
    "Amanda.Check.text_element_violated",
    "Amanda.Check.record_element_violated",
    "Amanda.Check.elements_run"
   ],
   "note": "the element types for which the assignment passes are characterised; it is rejected for texts and raises AttributeError for records, unions and options, for all programs"
  },
  {
   "property": "C62",
   "status": "partial",
   "theorems": [
    "Amanda.parsed_tree_partial",
    "Amanda.parsed_tree_violated"
   ],
   "note": "for every text; the one exception, an assignment to an element as target of a compound assignment, is a violation with a witness"
  },
  {
   "property": "C63",
   "status": "partial",
   "theorems": [
    "Amanda.Check.file_outcome_partial",
    "Amanda.Check.file_faithful_partial",
    "Amanda.Pipeline.faithful_of_safe",
    "Amanda.Check.accepted_ok",
    "Amanda.Check.nest_tree"
   ],
   "note": "for accepted programs that do not get stuck and meet the conditions of C47, in particular for the part of the language of C55; that accepted programs of it (without quebra or continua in para, and where functions without variables only change things, print and return) meet the conditions of C47 is proved for programs in which no statement stands in more than nine bodies (deeper, internal names can be confused); that variables fit in the slots of the machine is a hypothesis decided by slotsCheck. That such programs are compiled is proved too, unless they are too big for the image. Outside it processes are aborted, see C55"
  },
  {
   "property": "C64",
   "status": "partial",
   "theorems": [
    "Amanda.Check.error_line_partial",
    "Amanda.Check.rejected_reported_partial",
    "Amanda.Check.format_line_violated",
    "Amanda.Check.alias_file_violated"
   ],
   "note": "for the whole language and programs of any number of files, provided that expressions in format strings have no backslash and no line feed; with them an error may name a line after the end of the file, and the error that an alias is in use names the wrong file, both shown by witnesses"
  },
  {
   "property": "C65",
   "status": "partial",
   "theorems": [
    "Amanda.Check.expr_scoping",
    "Amanda.Check.stmt_scoping_partial",
    "Amanda.Check.declaration_scope",
    "Amanda.Check.declaration_defines",
    "Amanda.Check.scopes_nest",
    "Amanda.Check.method_name_violated"
   ],
   "note": "for the whole language and every state in which scopes are made after the scopes around them; the one exception is the bare name of a method, which is defined in the scope of the module and hides a function of that name, shown by a witness"
  },
  {
   "property": "C66",
   "status": "partial",
   "theorems": [
    "Amanda.Check.placement_partial",
    "Amanda.Check.unreached_placement_violated"
   ],
   "note": "for the whole language and programs of any number of files, on everything that the generator is given; the exception are blocks of arms that can not be reached, which the checker does not visit, shown by a witness; that `alvo` stands in a method and not in a function is not part of the statement"
  },
  {
   "property": "C67",
   "status": "proved",
   "theorems": [
    "Amanda.text_read",
    "Amanda.text_contains"
   ],
   "note": "the way of cutting texts into characters (crate unicode-segmentation) is a parameter with the two laws its documentation promises; texts below 2^63 code points, as Rust has it"
  },
  {
   "property": "C68",
   "status": "proved",
   "theorems": [
    "Amanda.step_after",
    "Amanda.written_stays"
   ],
   "note": "modules are given the same number of instructions each; output is the text handed to the standard output, flushing is not modelled"
  },
  {
   "property": "C69",
   "status": "partial",
   "theorems": [
    "Amanda.builds_agree_partial",
    "Amanda.builds_agree_violated"
   ],
   "note": "false for programs that read: leia removes the line feed inside debug_assert!; proved for every run that does not panic and reads nothing"
  }
 ]
}