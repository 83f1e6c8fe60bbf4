import Lean
import Verif.Props.Reader
import Verif.Props.Pe
import Verif.Props.Heaps
import Verif.Props.Signature
import Verif.Props.Tables
import Verif.Props.Metadata
import Verif.Props.MethodBody
import Verif.Props.Registry
import Verif.Props.Names
import Verif.Props.Loading
import Verif.Props.Assemblies
import Verif.Props.Arith
import Verif.Props.Decode
import Verif.Props.Variables
import Verif.Props.Calls
import Verif.Props.Objects
import Verif.Props.Output
import Verif.Props.Construct
import Verif.Props.Lang
import Verif.Props.Depths
import Verif.Props.Layout
import Verif.Props.Typing
import Verif.Props.Arrays
import Verif.Props.Files
import Verif.Props.Kinds
import Verif.Props.Acyclic
import Verif.Props.Display
import Verif.Props.Abstract
import Verif.Props.Valid
import Verif.Props.Floats
import Verif.Props.Whole
import Verif.Props.Objective
import Verif.Props.Program
import Verif.Props.ReadBack
import Verif.Props.Main
import Verif.Props.Contains
import Verif.Props.Builds
import Verif.Props.Kept
import Verif.Props.Later
import Verif.Props.Borrow
import Verif.Props.Links
import Verif.Props.Operators
import Verif.Props.Source
import Verif.Props.Align
import Verif.Props.Natives
import Verif.Props.Ownership
import Verif.Props.Cost
import Verif.Props.Room
import Verif.Props.Ends
import Verif.Props.Further
import Verif.Props.Args
import Verif.Props.Unread
import Verif.Props.Declared
import Verif.Props.Garbage
import Verif.Props.Deep
import Verif.Props.Sections
import Verif.Props.Typed
import Verif.Props.AlignFiles
import Verif.Props.AlignBodies
import Verif.Props.Nesting
import Verif.Props.Spelling
import Verif.Props.AlignSigs
import Verif.Props.Halts
import Verif.Props.Unreached
import Verif.Props.Renamed
import Verif.Props.Handlers
import Verif.Props.Narrow
import Verif.Props.Literals
import Verif.Props.Harmless
/-! # Axiom audit

Fails the build if a property theorem depends on an axiom other than `propext`, `Classical.choice`, `Quot.sound`. -/

open Lean Elab Command in
elab "audit " ns:ident* : command => do
  for n in ns do
    let c ← liftCoreM (realizeGlobalConstNoOverloadWithInfo n)
    for a in ← liftCoreM (collectAxioms c) do
      unless a ∈ [``propext, ``Classical.choice, ``Quot.sound] do
        throwError "{c} depends on {a}"

audit
  Clr.C01_read_exact
  Clr.C01_address_limit_refuted
  Clr.C02_read_array
  Clr.C02_count_overflow_refuted
  Clr.C03_peek_scalar
  Clr.C03_peek_array_refuted
  Clr.C03_peek_array_partial
  Clr.C04_read_str
  Clr.C04_c_str_round_trip
  Clr.C04_padded_round_trip
  Clr.C05_parse_total
  Clr.C06_round_trip
  Clr.C07_resolve
  Clr.C08_hostile_sections_refuted
  Clr.C08_no_wrap_partial
  Clr.C08_release_total_partial
  Clr.C09_streams
  Clr.C09_unknown
  Clr.C10_refuted
  Clr.C10_memory_safe_partial
  Clr.C10_returns_partial
  Clr.C100_partial
  Clr.C100_refuted
  Clr.C101_checked
  Clr.C101_partial
  Clr.C101_constants
  Clr.C101_refuted
  Clr.C101_string
  Clr.C101_string_read
  Clr.C101_two_strings
  Clr.C101_first_string
  Clr.C101_element_read
  Clr.C101_element_write
  Clr.C101_field_write
  Clr.C101_rows_refuted
  Clr.C101_files
  Clr.C101_files_never
  Clr.C101_files_types
  Clr.C101_files_refuted
  Clr.C101_bodies
  Clr.C101_bodies_never
  Clr.C101_bodies_tiny
  Clr.C101_strings
  Clr.C101_strings_short
  Clr.C101_strings_never
  Clr.C101_fields
  Clr.C101_methods
  Clr.C101_properties
  Clr.C101_specs
  Clr.C101_signatures_checked
  Clr.C101_signatures_low
  Clr.C101_signatures_never
  Clr.C102_partial
  Clr.C102_strings
  Clr.C102_no_code
  Clr.C102_execute
  Clr.C102_refuted
  Clr.C103_drop
  Clr.C103_exact
  Clr.C103_kept
  Clr.C103_partial
  Clr.C103_end_partial
  Clr.C103_runtime
  Clr.C103_links
  Clr.C103_assembly
  Clr.C103_members_partial
  Clr.C103_refuted
  Clr.C104_instance
  Clr.C104_fields
  Clr.C104_sizes_partial
  Clr.C104_doubled
  Clr.C104_counted
  Clr.C104_depth
  Clr.C104_refuted
  Clr.C104_full_refuted
  Clr.C105_counted
  Clr.C105_load_counted
  Clr.C105_tables_partial
  Clr.C105_signatures_partial
  Clr.C105_bodies_partial
  Clr.C105_load_partial
  Clr.C105_bounded
  Clr.C105_refuted
  Clr.C105_refuted_signatures
  Clr.C105_refuted_load
  Clr.C105_full_refuted
  Clr.C106_partial
  Clr.C106_again
  Clr.C106_refuted
  Clr.C106_full_refuted
  Clr.C107_kept_partial
  Clr.C107_surplus
  Clr.C107_missing
  Clr.C107_refuted
  Clr.C107_refuted_missing
  Clr.C107_full_refuted
  Clr.C108_tail
  Clr.C108_tail_program
  Clr.C108_headers
  Clr.C108_headers_program
  Clr.C109_packed_partial
  Clr.C109_refuted_packing
  Clr.C109_refuted_offsets
  Clr.C109_refuted_sizes
  Clr.C109_full_refuted
  Clr.C11_partial
  Clr.C11_refuted
  Clr.C110_none_partial
  Clr.C110_never
  Clr.C110_refuted
  Clr.C110_full_refuted
  Clr.C111_size
  Clr.C111_instance
  Clr.C111_fields
  Clr.C111_methods
  Clr.C111_load
  Clr.C111_load_ends
  Clr.C111_load_never
  Clr.C111_execute
  Clr.C112_exact
  Clr.C112_panics_iff
  Clr.C112_round_trip_partial
  Clr.C112_not_text_refuted
  Clr.C113_exact
  Clr.C113_numbers
  Clr.C113_constant
  Clr.C113_not_a_value_refuted
  Clr.C114_same
  Clr.C114_chain
  Clr.C114_leaf
  Clr.C114_partial
  Clr.C114_refuted
  Clr.C115_partial
  Clr.C115_method_partial
  Clr.C115_refuted
  Clr.C116_partial
  Clr.C116_refuted
  Clr.C117_partial
  Clr.C117_method_partial
  Clr.C117_refuted
  Clr.C118_renamed
  Clr.C119_ignored
  Clr.C119_refuted
  Clr.C12_lookup_exact
  Clr.C12_suffix
  Clr.C120_partial
  Clr.C120_ignored
  Clr.C120_refuted
  Clr.C121_partial
  Clr.C121_distinct
  Clr.C121_refuted
  Clr.C122_partial
  Clr.C122_refuted
  Clr.C13_user_string
  Clr.C14_resources
  Clr.C15_unpack
  Clr.C15_injective
  Clr.C16_round_trip
  Clr.C16_total
  Clr.C17_confined
  Clr.C17_independent
  Clr.C18_open_refuted
  Clr.C18_open_partial
  Clr.C19_round_trip
  Clr.C20_total
  Clr.C21_lower_bounds_refuted
  Clr.C21_zero_based_partial
  Clr.C22_method
  Clr.C22_field
  Clr.C22_property
  Clr.C22_method_spec
  Clr.C22_type_spec
  Clr.C23_field_refuted
  Clr.C23_total_partial
  Clr.C24_round_trip
  Clr.C25_refuted
  Clr.C25_round_trip_partial
  Clr.C25_only_assigned
  Clr.C26_refuted
  Clr.C26_widths_partial
  Clr.C27_refuted
  Clr.C27_round_trip_partial
  Clr.C28_refuted
  Clr.C28_partial
  Clr.C29_refuted
  Clr.C29_partial
  Clr.C30_attributes
  Clr.C31_tiny
  Clr.C32_fat
  Clr.C33_clauses
  Clr.C34_ids
  Clr.C34_ids_checked
  Clr.C34_stable
  Clr.C35_latest
  Clr.C35_never_lost
  Clr.C36_same
  Clr.C36_distinct_partial
  Clr.C36_kind_partial
  Clr.C36_refuted
  Clr.C37_partial
  Clr.C37_loaded_partial
  Clr.C37_base_classes
  Clr.C37_refuted
  Clr.C38_partial
  Clr.C38_refuted_static
  Clr.C38_refuted_reference
  Clr.C38_refuted_order
  Clr.C39_methods
  Clr.C39_fields
  Clr.C39_types
  Clr.C39_refs
  Clr.C40_partial
  Clr.C40_refuted
  Clr.C40_skipped_refuted
  Clr.C41_partial
  Clr.C41_refuted
  Clr.C42_partial
  Clr.C42_cycles_partial
  Clr.C42_refuted
  Clr.C42_refuted_size
  Clr.C43_keys_partial
  Clr.C43_bound_partial
  Clr.C43_refuted
  Clr.C44
  Clr.C44_one
  Clr.C45_partial
  Clr.C45_refuted
  Clr.C46_partial
  Clr.C46_refuted
  Clr.C47_new
  Clr.C47_inside
  Clr.C47_outside
  Clr.C47_others
  Clr.C48_arith
  Clr.C48_neg
  Clr.C48_bitwise
  Clr.C48_not
  Clr.C48_shift
  Clr.C48_shift_count
  Clr.C49
  Clr.C50_partial
  Clr.C50_refuted
  Clr.C51_compare
  Clr.C51_branch2
  Clr.C51_branch1
  Clr.C51_branch2
  Clr.C51_branch1
  Clr.C52_br
  Clr.C53_partial
  Clr.C53_constants
  Clr.C53_short_constants
  Clr.C53_call
  Clr.C53_refuted
  Clr.C54_partial
  Clr.C54_ret
  Clr.C54_void
  Clr.C54_refuted
  Clr.C55
  Clr.C55_host
  Clr.C56_partial
  Clr.C56_refuted
  Clr.C56_deep
  Clr.C57_partial
  Clr.C57_frames
  Clr.C57_refuted
  Clr.C58_partial
  Clr.C58_refuted
  Clr.C59_new
  Clr.C59_partial
  Clr.C59_refuted
  Clr.C60_partial
  Clr.C60_two_bytes_partial
  Clr.C60_refuted
  Clr.C61
  Clr.C61_host
  Clr.C61_write
  Clr.C61_literal
  Clr.C61_grows
  Clr.C61_instructions
  Clr.C62
  Clr.C63_partial
  Clr.C63_refuted
  Clr.C64_partial
  Clr.C64_call
  Clr.C64_refuted
  Clr.C64_refuted_host
  Clr.C65_partial
  Clr.C65_refuted
  Clr.C66_partial
  Clr.C66_early_partial
  Clr.C66_refuted
  Clr.C67_total
  Clr.C68_named
  Clr.C68_resolves
  Clr.C69_partial
  Clr.C69_refuted
  Clr.C70_partial
  Clr.C70_refuted
  Clr.C71_partial
  Clr.C71_refuted
  Clr.C72_partial
  Clr.C72_refuted
  Clr.C73_partial
  Clr.C73_leaf
  Clr.C73_refuted
  Clr.C73_refuted_release
  Clr.C74_partial
  Clr.C74_view
  Clr.C74_new
  Clr.C74_refuted
  Clr.C75_partial
  Clr.C75_refuted
  Clr.C76
  Clr.C77_partial
  Clr.C77_program_partial
  Clr.C77_refuted
  Clr.C78_partial
  Clr.C78_interfaces_partial
  Clr.C78_refuted_base
  Clr.C78_refuted_kind
  Clr.C79_partial
  Clr.C79_loaded_partial
  Clr.C79_refuted
  Clr.C80_fields
  Clr.C80_fields_loaded
  Clr.C80_partial
  Clr.C80_doubled
  Clr.C80_refuted
  Clr.C81_partial
  Clr.C81_answers
  Clr.C81_refuted
  Clr.C82
  Clr.C82_address
  Clr.C83_partial
  Clr.C83_refuted
  Clr.C84_partial
  Clr.C84_refuted
  Clr.C85_partial
  Clr.C85_file
  Clr.C85_refuted
  Clr.C86_compare_partial
  Clr.C86_branch2_partial
  Clr.C86_branch1_partial
  Clr.C86_un_partial
  Clr.C86_refuted
  Clr.C87_partial
  Clr.C87_neg
  Clr.C87_refuted
  Clr.C88_partial
  Clr.C88_refuted
  Clr.C89_partial
  Clr.C89_refuted_heap
  Clr.C89_refuted_room
  Clr.C89_refuted_negative
  Clr.C89_refuted_object
  Clr.C90_partial
  Clr.C90_refuted_room
  Clr.C90_refuted_heap
  Clr.C91_partial
  Clr.C91_refuted
  Clr.C92_partial
  Clr.C92_no_argument
  Clr.C92_rejected
  Clr.C92_refuted
  Clr.C93_partial
  Clr.C93_answers
  Clr.C93_refuted
  Clr.C94
  Clr.C94_reads
  Clr.C94_program
  Clr.C94_panics
  Clr.C95
  Clr.C95_later
  Clr.C95_answers
  Clr.C96_partial
  Clr.C96_refuted_room
  Clr.C96_refuted_heap
  Clr.C97_borrows_partial
  Clr.C97_rules
  Clr.C97_start
  Clr.C97_view_refuted
  Clr.C97_execute_refuted
  Clr.C98_types
  Clr.C98_assemblies
  Clr.C98_owner
  Clr.C98_assembly_partial
  Clr.C98_failed
  Clr.C98_refuted
  Clr.C99_numbers
  Clr.C99_kind
  Clr.C99_arith
  Clr.C99_divide
  Clr.C99_negate
  Clr.C99_bitwise
  Clr.C99_complement
  Clr.C99_shift
  Clr.C99_shift_right
  Clr.C99_compare
  Clr.C99_mixed
  Clr.C99_float_bits
