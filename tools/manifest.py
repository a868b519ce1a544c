"""Writes MANIFEST.json from the table below."""
import json, os

C = {}
B = "Amanda.Bson."
A = "Amanda."


def c(p, st, th, note=""):
    C[p] = {"property": p, "status": st, "theorems": th, "note": note}


c("C01", "proved", [B + "image_round_trip"])
c("C02", "proved", [B + "dumps_accepts_iff", B + "dumps_size"])
c("C03", "proved", [B + "value_self_delimiting"])
c("C04", "proved", [A + "instruction_round_trip", A + "program_round_trip"])
c("C05", "proved", [A + "opcode_tables_agree"])
c("C06", "proved", [A + "jumps_land_on_instructions"],
  "all statements and expressions of the generator's input; a quebra outside any loop fails in the generator")
c("C07", "proved", [A + "offsets_are_exact", A + "function_entry_exact"])
c("C08", "proved", [A + "const_index_selects", A + "name_index_selects", A + "image_tables_match"])
c("C09", "partial", [A + "operand_overflow_rejected_partial", A + "local_slot_overflow_violated"],
  "one and eight byte operands are checked; two-byte operands (local slots, record indices) wrap silently, shown by a witness")
c("C10", "proved", [A + "int_arith_exact"])
c("C11", "proved", [A + "int_division_law", A + "int_division_min"])
c("C12", "proved", [A + "zero_divisor_stops", A + "nonzero_divisor_no_zero_error"],
  "a real divisor of // is truncated first, see floordiv_truncates_real_divisor")
c("C13", "proved", [A + "int_comparisons", A + "neq_is_negation"])
c("C14", "proved", [A + "int_texto_int", A + "parseI64_iff", A + "texto_to_int"])
c("C15", "proved", [A + "mixed_as_converted"])
c("C16", "proved", [A + "value_stack_is_lifo"])
c("C17", "partial", [A + "call_restores_caller_partial", A + "call_leaves_callee_values_violated"],
  "holds for functions that reserve at least one slot; a function with no parameter and no local leaves its temporaries on the caller's stack, shown by a witness")
c("C18", "proved", [A + "frames_bounded", A + "call_at_limit_reported"])
c("C19", "proved", [A + "vector_read", A + "vector_write"])
c("C20", "partial", [A + "vec_shape", A + "vec_independent_1d_partial", A + "vec_independent_2d_partial",
  A + "vec_independent_violated"],
  "shape proved for all dimension lists; independence holds up to two dimensions and fails from three on, shown by a witness")
c("C21", "proved", [A + "vectors_are_lists", A + "size_is_length"])
c("C22", "proved", [A + "record_build", A + "record_read", A + "record_write"])
c("C23", "proved", [A + "option_value", A + "option_value_or", A + "option_is_null"])
c("C26", "partial", [A + "lexing_ends_partial", A + "lexing_ends_ascii", A + "lexing_ends_violated"],
  "every text is divided into tokens up to EOF or ends in a lexical error, unless a numeral is one that int refuses (Python ValueError, shown by a witness); never for ASCII texts with numerals of at most 4300 digits")
c("C27", "proved", [A + "tokens_lex_back"], "numerals of up to 4300 digits, the most Python's int reads")
c("C28", "partial", [A + "plain_literal", A + "escaped_literal_partial", A + "escaped_literal_violated"],
  "proved for literals without backslashes and for escapes with no quote two characters after; otherwise characters are lost, shown by a witness")
c("C29", "partial", [A + "token_lines_partial", A + "token_lines_violated", A + "token_line_exists"],
  "holds when no string literal contains a line break; such line breaks are not counted, shown by a witness")
c("C30", "proved", [A + "word_token", A + "symbol_token"])
c("C31", "proved", [A + "precedence", A + "expression_read_back"],
  "texts of operator trees over numerals and names; for tokens also calls, indices, members and redundant parentheses")
c("C32", "partial", [A + "parsing_ends_partial", A + "parsing_ends_plain", A + "parsing_tokens_end_partial",
  A + "parsing_ends_violated"],
  "every text gives a tree or a reported error, or one of three uncaught Python exceptions (shown by witnesses); the last never for ASCII texts without iguala and format strings. Python's recursion limit is not modelled")
c("C33", "partial", [A + "compound_assignment_partial", A + "compound_field_violated"],
  "same tree as the long form for variables and vector elements; for record fields the operator is dropped, for every target and value")
c("C34", "partial", [A + "type_equality_partial", A + "type_equality_violated", A + "assignability_partial",
  A + "assignability_violated", A + "promotion_one_way_partial", A + "promotion_both_ways_violated"],
  "proved for types whose only generic part is Opcao (equality for all generic types); fails for other generic registos, for declarations of the same name in two modules and between indef and indef?, shown by witnesses")
c("C35", "partial", [A + "operators_sound_partial", A + "null_comparison_sound", A + "unary_sound_partial",
  A + "operators_violated"],
  "holds on int, real, bool and texto and for comparisons with nulo; fails for equality of registos, of indef and of optional values, for // on reals, unary + and the negation of the least integer")
c("C36", "partial", [A + "conversions_sound_partial", A + "conversions_violated"],
  "holds between basic types and for indef values with a type the VM can name; fails for indef holding nulo or a registo and for conversions to T?")
c("C24", "partial", [A + "fmtSplit_source", A + "fstring_value_partial", A + "fstring_code_partial",
  A + "fstring_text_violated", A + "fstring_bytes_violated"],
  "holds when no literal piece reads as a number, truth value or nulo, begins with a quote or with a character of more than one byte; otherwise the piece is changed or the image does not load, shown by witnesses")
c("C37", "partial", [A + "function_returns_partial", A + "function_returns_violated", A + "Check.declared_returns"],
  "for bodies without retorna in loops and whose senaose branches pass the check too; otherwise an accepted function can fall off its end, shown by witnesses")
c("C45", "partial", [A + "escolha_first_match_partial", A + "firstEqual_unique", A + "escolha_first_match_violated",
  A + "escolha_blocks_violated"],
  "when evaluating the selector and the values of the cases changes nothing; the selector is evaluated again for every case tried and blocks are not transformed, shown by witnesses")
c("C38", "partial", [A + "quebra_ends_loop", A + "continua_restarts_loop", A + "quebra_code_partial",
  A + "continua_code_partial", A + "quebra_innermost_violated", A + "continua_innermost_violated"],
  "proved for enquanto, meaning and code; in a para inside an enquanto both act on the enquanto, shown by witnesses")
N = A + "Names."
c("C39", "partial", [N + "names_resolve_partial", N + "redeclaration_rejected_partial", N + "inner_declarations_stay_inside",
  N + "method_name_violated", N + "callee_again_violated", N + "member_init_rejected"],
  "the checker's visitor against lexical scoping, for programs without the compiler's own names and method names that hide others; names of methods, called names looked up again by the generator and some initialisers break the claim, shown by witnesses")
c("C40", "partial", [N + "locals_separate_partial", N + "tables_dense_partial", N + "slots_apart", N + "iguala_slots_violated",
  N + "digits_violated", N + "arm_names_violated", N + "hidden_name_violated"],
  "up to nine blocks, names other than the compiler's own, and code without iguala cases that take out parts; beyond that locals share slots, shown by witnesses")
I = A + "Iguala."
c("C41", "partial", [I + "iguala_first_arm_partial", I + "iguala_first_arm_violated", I + "tame_of_tags", I + "tame_of_lits"],
  "for tame arms, among them all that test only variants and numbers or texts followed by names, on targets of every type; for other arms the claim is false, shown by witnesses")
c("C42", "partial", [I + "iguala_exhaustive_partial", I + "iguala_exhaustive_violated"],
  "for tame arms; for other arms the claim is false, shown by a witness")
c("C43", "partial", [I + "rejected_iguala_unmatched", I + "listed_patterns_partial", I + "listed_patterns_violated"],
  "a rejected list of arms leaves a value unmatched, for all arms; the listed patterns are exactly the unmatched variants if arms test only variants, otherwise the claim is false, shown by witnesses")
c("C44", "partial", [A + "iguala_code_partial", A + "iguala_leaves_subject_violated", A + "iguala_fallback_violated"],
  "no code is generated for the fallback of a switch, shown for all switches and by a run; in runs that take a case the value of the selected arm is on top and the stack below is kept; nothing is in between if every case names parts of its subject and no arm is left early, otherwise the subject may stay in between, shown by a witness")
c("C46", "proved", [A + "expression_code_correct", A + "assignment_value_violated"],
  "the fragment is okE and cleanE of SourceWf: all expression forms; assignments not as operands, fields read outside the right of a field assignment, iguala whose cases all name parts; for assignments as operands the claim is false, shown by a witness. Literals, operators and conversions on values are those of Value, specified in C10-C15 and C27-C28")
c("C47", "proved", [A + "statements_code_correct", A + "compiled_program_correct", A + "foreign_assignment_violated",
  A + "field_to_field_violated"],
  "the fragment is okSs of SourceWf: all statement forms; variables of other modules are only read, quebra and continua outside para. For code outside it the claim can be false, shown by witnesses. Variables of sibling blocks may share an internal name. Runs that end; the others are in C58")
c("C48", "partial", [A + "call_code_partial", A + "call_code_limit", A + "compiled_program_correct",
  A + "call_keeps_operands_violated", A + "call_in_import_violated"],
  "mutually recursive functions to any depth; not for calls at the top level of imported modules, nor when a function without parameters and locals leaves values of expression statements behind; both shown by witnesses")
c("C49", "proved", [A + "para_runs_range", A + "para_code_runs_range", A + "paraParts_const", A + "paraParts_var",
  A + "mem_paraRange", A + "length_paraRange"],
  "bound and increment are evaluated each round, so they must keep their value; after the last round the variable may overflow, which is reported")
J = A + "Imports."
c("C50", "partial", [J + "imports_terminate", J + "cyclic_rejected", J + "cyclic_error_sound", J + "cyclic_error_iff",
  J + "file_analysed_once_partial", J + "embutidos_plain", J + "builtin_again_violated", J + "main_again_violated", J + "braces_violated"],
  "termination and the cycles proved for every finite set of files whose paths have no braces; each file but the builtin one is analysed once in accepted programs; the builtin file and, in rejected programs, the program's own file are analysed again, shown by witnesses. The rest of the checker is a parameter")
c("C51", "partial", [J + "imports_before_main_partial", J + "imports_ready_partial", J + "sole_importer_runs_first",
  A + "import_order_violated"],
  "the program runs after all it imports, and programs that import in dependency order are right; a module that alone imports another always runs before it, shown for all such programs and by a run")
R = A + "Lines."
c("C25", "partial", [R + "runtime_line_partial", R + "failing_line", R + "found_line", R + "written_once", R + "written_everywhere",
  R + "revisited_line_wrong", R + "runtime_line_violated", R + "text_line_violated", R + "caller_line_violated"],
  "the line named is characterised for every program and every failing instruction; it is the right one in modules whose nodes are generated in the order of their lines, and a line taken up within another one is never named, so the claim is false there, shown by witnesses. Calls with all 1000 frames in use are left out")
Q = A + "Pipeline."
c("C52", "partial", [Q + "exit_status_partial", Q + "accepted_status", Q + "source_status", Q + "syntax_error_status",
  Q + "check_error_status", Q + "exit_status_violated"],
  "for accepted programs status 0 means running to the end, for every program; every file rejected with a reported error also leaves status 0, so the property fails for all of them. The checker is a parameter")
c("C54", "proved", [A + "syntax_error_line", A + "lineOf_iff"],
  "for every text; the line may be too small after a string that spans lines (C29)")
c("C53", "partial", [A + "leia_reads_a_line_partial", A + "leia_int_violated"],
  "prompt and consumption of one line proved; in a release build (the distributed executable made by setup.py) the line feed stays in the result, so leia_int rejects every complete line")

K = A + "Check."
c("C55", "partial", [K + "accepted_never_stuck_partial", K + "accepted_std_partial", A + "Source.typed_never_stuck", K + "accepted_stuck_violated",
  K + "never_stuck_violated"],
  "every accepted program of a part of the language given by its syntax (Frag: scalars, vectors, functions, recursion, loops, top-level declarations, input, output and growing and measuring vectors by the functions of the library; no records, unions, options, methods, imports or vec) never gets stuck, with the real library; outside it accepted programs get stuck, shown by witnesses")
c("C56", "partial", [K + "variables_keep_types_partial", K + "variable_type_violated"],
  "the variables declared at the top level of programs of the same part of the language; elements assigned without promotion break it elsewhere, shown by a witness")
c("C57", "partial", [K + "checker_reports_partial", K + "checker_reports_flat", K + "accepted_compiles_partial", K + "process_raises_partial", K + "process_ends_partial",
  K + "condition_raises_violated", K + "checker_raises_violated", K + "long_vector_violated"],
  "for every program of Verif.Frag the checker accepts or reports an error, except that a condition that is a vector raises AttributeError; the code generator compiles every accepted strict program of Verif.Frag, except that it raises one of five exceptions when a number does not fit its place in the image, such as the number of elements of a vector of 256; every se or enquanto on a value that is not of a primitive type does so, for all programs; further witnesses. The parts of the language outside Verif.Frag are not covered by the positive part")
c("C59", "partial", [K + "methods_kept_apart_partial", K + "method_of_type_violated"],
  "the tables the checker looks methods up in keep types apart; the code generator knows functions by their names alone, so the last of several methods with one name is run, shown by a witness")
c("C60", "partial", [K + "items_available_partial", K + "reimport_violated"],
  "lists of names proved; importing a whole module that was imported before in part adds nothing, shown by a witness")
c("C61", "partial", [K + "element_settable_partial", K + "text_element_violated", K + "record_element_violated", K + "elements_run"],
  "the element types for which the assignment passes are characterised; it is rejected for texts and raises AttributeError for records, unions and options, for all programs")

c("C58", "proved", [A + "compiled_program_endless", A + "compiled_program_exact", A + "Source.Prog.eval_rounds"],
  "for the programs of C47 and C48; a program that gets stuck in the source has no meaning there and is left out. Nothing is said about the output of a program that runs forever")
c("C62", "partial", [A + "parsed_tree_partial", A + "parsed_tree_violated"],
  "for every text; the one exception, an assignment to an element as target of a compound assignment, is a violation with a witness")
c("C63", "partial", [K + "file_outcome_partial", K + "file_faithful_partial", Q + "faithful_of_safe", K + "accepted_ok", K + "nest_tree"],
  "for accepted programs that do not get stuck and meet the conditions of C47, in particular for the part of the language of C55; that accepted programs of it (without quebra or continua in para, and where functions without variables only change things, print and return) meet the conditions of C47 is proved for programs in which no statement stands in more than nine bodies (deeper, internal names can be confused); that variables fit in the slots of the machine is a hypothesis decided by slotsCheck. That such programs are compiled is proved too, unless they are too big for the image. Outside it processes are aborted, see C55")

c("C64", "partial", [K + "error_line_partial", K + "rejected_reported_partial", K + "format_line_violated", K + "alias_file_violated"],
  "for the whole language and programs of any number of files, provided that expressions in format strings have no backslash and no line feed; with them an error may name a line after the end of the file, and the error that an alias is in use names the wrong file, both shown by witnesses")

c("C65", "partial", [K + "expr_scoping", K + "stmt_scoping_partial", K + "declaration_scope", K + "declaration_defines", K + "scopes_nest",
  K + "method_name_violated"],
  "for the whole language and every state in which scopes are made after the scopes around them; the one exception is the bare name of a method, which is defined in the scope of the module and hides a function of that name, shown by a witness")
c("C66", "partial", [K + "placement_partial", K + "unreached_placement_violated"],
  "for the whole language and programs of any number of files, on everything that the generator is given; the exception are blocks of arms that can not be reached, which the checker does not visit, shown by a witness; that `alvo` stands in a method and not in a function is not part of the statement")
c("C67", "proved", [A + "text_read", A + "text_contains"],
  "the way of cutting texts into characters (crate unicode-segmentation) is a parameter with the two laws its documentation promises; texts below 2^63 code points, as Rust has it")
c("C68", "proved", [A + "step_after", A + "written_stays"],
  "modules are given the same number of instructions each; output is the text handed to the standard output, flushing is not modelled")
c("C69", "partial", [A + "builds_agree_partial", A + "builds_agree_violated"],
  "false for programs that read: leia removes the line feed inside debug_assert!; proved for every run that does not panic and reads nothing")

here = os.path.dirname(os.path.abspath(__file__))
with open(os.path.join(here, "..", "MANIFEST.json"), "w") as f:
    json.dump({"claims": [C[k] for k in sorted(C)]}, f, indent=1, ensure_ascii=False)

# Verif/Audit.lean prints the axioms of every theorem of the manifest
names = sorted({t for k in C for t in C[k]["theorems"]})
with open(os.path.join(here, "..", "lean", "Verif", "Audit.lean"), "w") as f:
    mods = sorted("Verif.Props." + n[:-5] for n in os.listdir(os.path.join(here, "..", "lean", "Verif", "Props")) if n.endswith(".lean"))
    f.write("".join("import %s\n" % m for m in mods))
    f.write("\n/-!\n# Axioms of the theorems of MANIFEST.json\n\nWritten by tools/manifest.py.\n-/\n\n")
    f.write("".join("#print axioms %s\n" % n for n in names))
