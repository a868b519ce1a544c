import Verif.Props.Accepted
import Verif.Props.Arith
import Verif.Props.Builds
import Verif.Props.Calm
import Verif.Props.CheckLines
import Verif.Props.Choice
import Verif.Props.Codegen
import Verif.Props.Compiles
import Verif.Props.Correctness
import Verif.Props.Declared
import Verif.Props.ErrorLines
import Verif.Props.FormatStrings
import Verif.Props.Grammar
import Verif.Props.Heap
import Verif.Props.Image
import Verif.Props.Imports
import Verif.Props.Instructions
import Verif.Props.Io
import Verif.Props.Lexing
import Verif.Props.Limits
import Verif.Props.Lines
import Verif.Props.Loops
import Verif.Props.Matching
import Verif.Props.Names
import Verif.Props.Parsing
import Verif.Props.Pipeline
import Verif.Props.Placement
import Verif.Props.Precedence
import Verif.Props.Returns
import Verif.Props.Scoping
import Verif.Props.Slots
import Verif.Props.Soundness
import Verif.Props.Stack
import Verif.Props.Texts
import Verif.Props.Typing
import Verif.Props.Whole
import Verif.Props.Written

/-!
# Axioms of the theorems of MANIFEST.json

Written by tools/manifest.py.
-/

#print axioms Amanda.Bson.dumps_accepts_iff
#print axioms Amanda.Bson.dumps_size
#print axioms Amanda.Bson.image_round_trip
#print axioms Amanda.Bson.value_self_delimiting
#print axioms Amanda.Check.accepted_compiles_partial
#print axioms Amanda.Check.accepted_never_stuck_partial
#print axioms Amanda.Check.accepted_ok
#print axioms Amanda.Check.accepted_std_partial
#print axioms Amanda.Check.accepted_stuck_violated
#print axioms Amanda.Check.alias_file_violated
#print axioms Amanda.Check.checker_raises_violated
#print axioms Amanda.Check.checker_reports_flat
#print axioms Amanda.Check.checker_reports_partial
#print axioms Amanda.Check.condition_raises_violated
#print axioms Amanda.Check.declaration_defines
#print axioms Amanda.Check.declaration_scope
#print axioms Amanda.Check.declared_returns
#print axioms Amanda.Check.element_settable_partial
#print axioms Amanda.Check.elements_run
#print axioms Amanda.Check.error_line_partial
#print axioms Amanda.Check.expr_scoping
#print axioms Amanda.Check.file_faithful_partial
#print axioms Amanda.Check.file_outcome_partial
#print axioms Amanda.Check.format_line_violated
#print axioms Amanda.Check.items_available_partial
#print axioms Amanda.Check.long_vector_violated
#print axioms Amanda.Check.method_name_violated
#print axioms Amanda.Check.method_of_type_violated
#print axioms Amanda.Check.methods_kept_apart_partial
#print axioms Amanda.Check.nest_tree
#print axioms Amanda.Check.never_stuck_violated
#print axioms Amanda.Check.placement_partial
#print axioms Amanda.Check.process_ends_partial
#print axioms Amanda.Check.process_raises_partial
#print axioms Amanda.Check.record_element_violated
#print axioms Amanda.Check.reimport_violated
#print axioms Amanda.Check.rejected_reported_partial
#print axioms Amanda.Check.scopes_nest
#print axioms Amanda.Check.stmt_scoping_partial
#print axioms Amanda.Check.text_element_violated
#print axioms Amanda.Check.unreached_placement_violated
#print axioms Amanda.Check.variable_type_violated
#print axioms Amanda.Check.variables_keep_types_partial
#print axioms Amanda.Iguala.iguala_exhaustive_partial
#print axioms Amanda.Iguala.iguala_exhaustive_violated
#print axioms Amanda.Iguala.iguala_first_arm_partial
#print axioms Amanda.Iguala.iguala_first_arm_violated
#print axioms Amanda.Iguala.listed_patterns_partial
#print axioms Amanda.Iguala.listed_patterns_violated
#print axioms Amanda.Iguala.rejected_iguala_unmatched
#print axioms Amanda.Iguala.tame_of_lits
#print axioms Amanda.Iguala.tame_of_tags
#print axioms Amanda.Imports.braces_violated
#print axioms Amanda.Imports.builtin_again_violated
#print axioms Amanda.Imports.cyclic_error_iff
#print axioms Amanda.Imports.cyclic_error_sound
#print axioms Amanda.Imports.cyclic_rejected
#print axioms Amanda.Imports.embutidos_plain
#print axioms Amanda.Imports.file_analysed_once_partial
#print axioms Amanda.Imports.imports_before_main_partial
#print axioms Amanda.Imports.imports_ready_partial
#print axioms Amanda.Imports.imports_terminate
#print axioms Amanda.Imports.main_again_violated
#print axioms Amanda.Imports.sole_importer_runs_first
#print axioms Amanda.Lines.caller_line_violated
#print axioms Amanda.Lines.failing_line
#print axioms Amanda.Lines.found_line
#print axioms Amanda.Lines.revisited_line_wrong
#print axioms Amanda.Lines.runtime_line_partial
#print axioms Amanda.Lines.runtime_line_violated
#print axioms Amanda.Lines.text_line_violated
#print axioms Amanda.Lines.written_everywhere
#print axioms Amanda.Lines.written_once
#print axioms Amanda.Names.arm_names_violated
#print axioms Amanda.Names.callee_again_violated
#print axioms Amanda.Names.digits_violated
#print axioms Amanda.Names.hidden_name_violated
#print axioms Amanda.Names.iguala_slots_violated
#print axioms Amanda.Names.inner_declarations_stay_inside
#print axioms Amanda.Names.locals_separate_partial
#print axioms Amanda.Names.member_init_rejected
#print axioms Amanda.Names.method_name_violated
#print axioms Amanda.Names.names_resolve_partial
#print axioms Amanda.Names.redeclaration_rejected_partial
#print axioms Amanda.Names.slots_apart
#print axioms Amanda.Names.tables_dense_partial
#print axioms Amanda.Pipeline.accepted_status
#print axioms Amanda.Pipeline.check_error_status
#print axioms Amanda.Pipeline.exit_status_partial
#print axioms Amanda.Pipeline.exit_status_violated
#print axioms Amanda.Pipeline.faithful_of_safe
#print axioms Amanda.Pipeline.source_status
#print axioms Amanda.Pipeline.syntax_error_status
#print axioms Amanda.Source.Prog.eval_rounds
#print axioms Amanda.Source.typed_never_stuck
#print axioms Amanda.assignability_partial
#print axioms Amanda.assignability_violated
#print axioms Amanda.assignment_value_violated
#print axioms Amanda.builds_agree_partial
#print axioms Amanda.builds_agree_violated
#print axioms Amanda.call_at_limit_reported
#print axioms Amanda.call_code_limit
#print axioms Amanda.call_code_partial
#print axioms Amanda.call_in_import_violated
#print axioms Amanda.call_keeps_operands_violated
#print axioms Amanda.call_leaves_callee_values_violated
#print axioms Amanda.call_restores_caller_partial
#print axioms Amanda.compiled_program_correct
#print axioms Amanda.compiled_program_endless
#print axioms Amanda.compiled_program_exact
#print axioms Amanda.compound_assignment_partial
#print axioms Amanda.compound_field_violated
#print axioms Amanda.const_index_selects
#print axioms Amanda.continua_code_partial
#print axioms Amanda.continua_innermost_violated
#print axioms Amanda.continua_restarts_loop
#print axioms Amanda.conversions_sound_partial
#print axioms Amanda.conversions_violated
#print axioms Amanda.escaped_literal_partial
#print axioms Amanda.escaped_literal_violated
#print axioms Amanda.escolha_blocks_violated
#print axioms Amanda.escolha_first_match_partial
#print axioms Amanda.escolha_first_match_violated
#print axioms Amanda.expression_code_correct
#print axioms Amanda.expression_read_back
#print axioms Amanda.field_to_field_violated
#print axioms Amanda.firstEqual_unique
#print axioms Amanda.fmtSplit_source
#print axioms Amanda.foreign_assignment_violated
#print axioms Amanda.frames_bounded
#print axioms Amanda.fstring_bytes_violated
#print axioms Amanda.fstring_code_partial
#print axioms Amanda.fstring_text_violated
#print axioms Amanda.fstring_value_partial
#print axioms Amanda.function_entry_exact
#print axioms Amanda.function_returns_partial
#print axioms Amanda.function_returns_violated
#print axioms Amanda.iguala_code_partial
#print axioms Amanda.iguala_fallback_violated
#print axioms Amanda.iguala_leaves_subject_violated
#print axioms Amanda.image_tables_match
#print axioms Amanda.import_order_violated
#print axioms Amanda.instruction_round_trip
#print axioms Amanda.int_arith_exact
#print axioms Amanda.int_comparisons
#print axioms Amanda.int_division_law
#print axioms Amanda.int_division_min
#print axioms Amanda.int_texto_int
#print axioms Amanda.jumps_land_on_instructions
#print axioms Amanda.leia_int_violated
#print axioms Amanda.leia_reads_a_line_partial
#print axioms Amanda.length_paraRange
#print axioms Amanda.lexing_ends_ascii
#print axioms Amanda.lexing_ends_partial
#print axioms Amanda.lexing_ends_violated
#print axioms Amanda.lineOf_iff
#print axioms Amanda.local_slot_overflow_violated
#print axioms Amanda.mem_paraRange
#print axioms Amanda.mixed_as_converted
#print axioms Amanda.name_index_selects
#print axioms Amanda.neq_is_negation
#print axioms Amanda.nonzero_divisor_no_zero_error
#print axioms Amanda.null_comparison_sound
#print axioms Amanda.offsets_are_exact
#print axioms Amanda.opcode_tables_agree
#print axioms Amanda.operand_overflow_rejected_partial
#print axioms Amanda.operators_sound_partial
#print axioms Amanda.operators_violated
#print axioms Amanda.option_is_null
#print axioms Amanda.option_value
#print axioms Amanda.option_value_or
#print axioms Amanda.paraParts_const
#print axioms Amanda.paraParts_var
#print axioms Amanda.para_code_runs_range
#print axioms Amanda.para_runs_range
#print axioms Amanda.parseI64_iff
#print axioms Amanda.parsed_tree_partial
#print axioms Amanda.parsed_tree_violated
#print axioms Amanda.parsing_ends_partial
#print axioms Amanda.parsing_ends_plain
#print axioms Amanda.parsing_ends_violated
#print axioms Amanda.parsing_tokens_end_partial
#print axioms Amanda.plain_literal
#print axioms Amanda.precedence
#print axioms Amanda.program_round_trip
#print axioms Amanda.promotion_both_ways_violated
#print axioms Amanda.promotion_one_way_partial
#print axioms Amanda.quebra_code_partial
#print axioms Amanda.quebra_ends_loop
#print axioms Amanda.quebra_innermost_violated
#print axioms Amanda.record_build
#print axioms Amanda.record_read
#print axioms Amanda.record_write
#print axioms Amanda.size_is_length
#print axioms Amanda.statements_code_correct
#print axioms Amanda.step_after
#print axioms Amanda.symbol_token
#print axioms Amanda.syntax_error_line
#print axioms Amanda.text_contains
#print axioms Amanda.text_read
#print axioms Amanda.texto_to_int
#print axioms Amanda.token_line_exists
#print axioms Amanda.token_lines_partial
#print axioms Amanda.token_lines_violated
#print axioms Amanda.tokens_lex_back
#print axioms Amanda.type_equality_partial
#print axioms Amanda.type_equality_violated
#print axioms Amanda.unary_sound_partial
#print axioms Amanda.value_stack_is_lifo
#print axioms Amanda.vec_independent_1d_partial
#print axioms Amanda.vec_independent_2d_partial
#print axioms Amanda.vec_independent_violated
#print axioms Amanda.vec_shape
#print axioms Amanda.vector_read
#print axioms Amanda.vector_write
#print axioms Amanda.vectors_are_lists
#print axioms Amanda.word_token
#print axioms Amanda.written_stays
#print axioms Amanda.zero_divisor_stops
