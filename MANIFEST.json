{
 "claims": [
  {
   "property": "C01",
   "status": "proved",
   "theorems": [
    "Sbc.Vars.C01_refines_map",
    "Sbc.Vars.C01_storage_injective",
    "Sbc.Vars.C01_storage_stable"
   ],
   "note": ""
  },
  {
   "property": "C02",
   "status": "partial",
   "theorems": [
    "Sbc.Vars.C02_oom_iff_full",
    "Sbc.Vars.C02_freevar_partial",
    "Sbc.Vars.C02_freevar_violated"
   ],
   "note": "Creation half proved in full. FREEVAR half false of the code (C02_freevar_violated): it counts arrays/variables with a different formula; partial theorem states what holds."
  },
  {
   "property": "C03",
   "status": "proved",
   "theorems": [
    "Sbc.Labels.C03_refines_definitions",
    "Sbc.Labels.C03_lookup_after_definitions",
    "Sbc.Labels.C03_duplicate_rejected"
   ],
   "note": ""
  },
  {
   "property": "C04",
   "status": "partial",
   "theorems": [
    "Sbc.Arrays.C04_arrays_refine_tables_partial",
    "Sbc.Arrays.C04_write_read_partial",
    "Sbc.Arrays.C04_two_subscripts_violated"
   ],
   "note": "Proved for all histories avoiding the defective requests; refuted for two subscripts on a one-dimensional array (C04_two_subscripts_violated)."
  },
  {
   "property": "C05",
   "status": "partial",
   "theorems": [
    "Sbc.Arrays.C05_range_check_partial",
    "Sbc.Arrays.C05_range_check_violated",
    "Sbc.Arrays.C04_arrays_refine_tables_partial"
   ],
   "note": "Proved outside the defective cases; refuted for 1-D arrays with two subscripts, second subscript -1, second dimension 0."
  },
  {
   "property": "C06",
   "status": "partial",
   "theorems": [
    "Sbc.Arrays.C06_dim_partial",
    "Sbc.Arrays.C06_dim_violated",
    "Sbc.Arrays.C06_dim_size_violated",
    "Sbc.Arrays.C04_arrays_refine_tables_partial"
   ],
   "note": "Proved outside the defective cases; refuted: failed DIM raises no error, element count computed modulo 2^32, negative dimension accepted."
  },
  {
   "property": "C07",
   "status": "proved",
   "theorems": [
    "Sbc.Arith.C07_add",
    "Sbc.Arith.C07_add_overflow",
    "Sbc.Arith.C07_sub",
    "Sbc.Arith.C07_sub_overflow",
    "Sbc.Arith.C07_mult",
    "Sbc.Arith.C07_mult_overflow",
    "Sbc.Arith.C07_div",
    "Sbc.Arith.C07_div_overflow",
    "Sbc.Arith.C07_no_intermediate_overflow",
    "Sbc.Arith.C07_total"
   ],
   "note": ""
  },
  {
   "property": "C08",
   "status": "partial",
   "theorems": [
    "Sbc.Arith.C08_div_zero",
    "Sbc.Arith.C08_mod_zero",
    "Sbc.Arith.C08_modulo_partial",
    "Sbc.Arith.C08_modulo_violated",
    "Sbc.Arith.C08_negate"
   ],
   "note": "Division/remainder by zero and sign law; refuted for the remainder (C08_modulo_violated)."
  },
  {
   "property": "C09",
   "status": "proved",
   "theorems": [
    "Sbc.Arith.C09_and",
    "Sbc.Arith.C09_or",
    "Sbc.Arith.C09_xor",
    "Sbc.Arith.C09_not",
    "Sbc.Arith.C09_not_bits",
    "Sbc.Arith.C09_compare"
   ],
   "note": ""
  },
  {
   "property": "C10",
   "status": "partial",
   "theorems": [
    "Sbc.Num.C10_str_partial",
    "Sbc.Num.C10_str_violated"
   ],
   "note": "Proved for every number but INT_MIN and fractions 4094/4096, 4095/4096; refuted for those (C10_str_violated)."
  },
  {
   "property": "C11",
   "status": "partial",
   "theorems": [
    "Sbc.Num.C11_val_partial",
    "Sbc.Num.C11_total_partial",
    "Sbc.Num.C11_val_violated"
   ],
   "note": "Proved for numerals with at most six decimals and integer part below 524288, and absence of crashes with at most 31 decimals; refuted beyond (C11_val_violated)."
  },
  {
   "property": "C12",
   "status": "partial",
   "theorems": [
    "Sbc.Num.C12_val_str_partial",
    "Sbc.Num.C12_val_str_violated"
   ],
   "note": "Proved for every number STR$ prints correctly; refuted for the rest."
  },
  {
   "property": "C13",
   "status": "proved",
   "theorems": [
    "Sbc.Num.C13_hex",
    "Sbc.Num.C13_hex_digits",
    "Sbc.Num.C13_val_hex"
   ],
   "note": ""
  },
  {
   "property": "C14",
   "status": "proved",
   "theorems": [
    "Sbc.Strs.C14_roundtrip",
    "Sbc.Strs.C14_injective",
    "Sbc.Strs.C14_copy_roundtrip",
    "Sbc.Strs.C14_asc_chr",
    "Sbc.Strs.C14_chr_asc"
   ],
   "note": ""
  },
  {
   "property": "C15",
   "status": "proved",
   "theorems": [
    "Sbc.Strs.C15_compare",
    "Sbc.Strs.C15_total_order"
   ],
   "note": ""
  },
  {
   "property": "C16",
   "status": "partial",
   "theorems": [
    "Sbc.Strs.C16_left",
    "Sbc.Strs.C16_right",
    "Sbc.Strs.C16_left_right",
    "Sbc.Strs.C16_mid_partial",
    "Sbc.Strs.C16_mid_violated"
   ],
   "note": "LEFT$/RIGHT$ in full; MID$ proved for arguments up to 32767, refuted beyond (C16_mid_violated)."
  },
  {
   "property": "C17",
   "status": "partial",
   "theorems": [
    "Sbc.Strs.C17_instr_partial",
    "Sbc.Strs.C17_instr_violated"
   ],
   "note": "Proved for non-negative start positions; refuted for negative ones (read outside the string)."
  },
  {
   "property": "C18",
   "status": "partial",
   "theorems": [
    "Sbc.Strs.C18_subst_partial",
    "Sbc.Strs.C18_subst_violated"
   ],
   "note": "Proved when the result fits 256 characters or the replacement itself overflows; refuted otherwise (257 characters written)."
  },
  {
   "property": "C19",
   "status": "partial",
   "theorems": [
    "Sbc.Strs.C19_concat",
    "Sbc.Strs.C19_repeat",
    "Sbc.Strs.C19_concat_wide_violated",
    "Sbc.Strs.C19_concat_text"
   ],
   "note": "Proved in terms of 8-bit character codes for all strings; refuted for wide strings holding characters without an 8-bit code."
  },
  {
   "property": "C20",
   "status": "partial",
   "theorems": [
    "Sbc.StrPool.C20_values",
    "Sbc.StrPool.C20_handed_out_is_free",
    "Sbc.StrPool.C20_counted",
    "Sbc.StrPool.C20_no_leak_partial",
    "Sbc.StrPool.C20_never_out_partial",
    "Sbc.StrPool.C20_too_long_leak_violated",
    "Sbc.StrPool.C20_read_leak_violated",
    "Sbc.StrPool.C20_out_of_memory_violated",
    "Sbc.StrPool.C20_input_leak_violated"
   ],
   "note": "For every history without an Out of memory error: variables hold the right strings, a handed out buffer is unreferenced, counts are at least the references; exact counts and never running out proved for histories without errors, READ of strings, INPUT over wide strings and unused results; refuted for those and for Out of memory itself, for every pool size."
  },
  {
   "property": "C21",
   "status": "partial",
   "theorems": [
    "Sbc.Sort.C21_sort_partial",
    "Sbc.Sort.C21_duplicate_violated"
   ],
   "note": "Multiset of rows preserved whenever SORT terminates, for distinct argument arrays; refuted when the same array is given twice (C21_duplicate_violated)."
  },
  {
   "property": "C22",
   "status": "partial",
   "theorems": [
    "Sbc.Sort.C22_comparison_partial",
    "Sbc.Sort.C22_sorted_partial",
    "Sbc.Sort.C22_sort_violated",
    "Sbc.Sort.C22_diverges_violated"
   ],
   "note": "Ordering proved for the comparison and for arrays on which the partition loop ends; refuted: unsorted result (C22_sort_violated) and endless recursion (C22_diverges_violated)."
  },
  {
   "property": "C23",
   "status": "partial",
   "theorems": [
    "Sbc.Compress.C23_roundtrip",
    "Sbc.Compress.C23_store",
    "Sbc.Compress.C23_optimal",
    "Sbc.Compress.C23_bounds_violated"
   ],
   "note": "Round trip, store format and optimal choice proved for all inputs; refuted: compressor writes one byte past the buffer and the decompressor over-reads one byte (C23_bounds_violated)."
  },
  {
   "property": "C24",
   "status": "partial",
   "theorems": [
    "Sbc.Input.C24_fifo",
    "Sbc.Input.C24_order",
    "Sbc.Input.C24_inkey_partial",
    "Sbc.Input.C24_inkey_violated"
   ],
   "note": "FIFO proved in full; INKEY$ refuted for one key order (C24_inkey_violated)."
  },
  {
   "property": "C25",
   "status": "partial",
   "theorems": [
    "Sbc.Console.C25_screen_partial",
    "Sbc.Console.C25_prompt_violated",
    "Sbc.Console.C25_locate"
   ],
   "note": "Proved for all PRINT/LOCATE/CLS/COLOR/TABSTEP programs with row at most 24; refuted: row 24 is reachable and INPUT then fails (C25_prompt_violated)."
  },
  {
   "property": "C26",
   "status": "proved",
   "theorems": [
    "Sbc.Console.C26_puts",
    "Sbc.Console.C26_print"
   ],
   "note": ""
  },
  {
   "property": "C27",
   "status": "proved",
   "theorems": [
    "Sbc.Bg.C27_index",
    "Sbc.Bg.C27_banks",
    "Sbc.Bg.C27_bgput",
    "Sbc.Bg.C27_bgput_checked",
    "Sbc.Bg.C27_bgread",
    "Sbc.Bg.C27_parts",
    "Sbc.Bg.C27_reput",
    "Sbc.Bg.C27_put_read",
    "Sbc.Bg.C27_bgclr",
    "Sbc.Bg.C27_bgclr_all"
   ],
   "note": "Proved in full."
  },
  {
   "property": "C28",
   "status": "partial",
   "theorems": [
    "Sbc.Bg.C28_bgfill",
    "Sbc.Bg.C28_bgcopy_partial",
    "Sbc.Bg.C28_bgcopy_violated",
    "Sbc.Bg.C28_bgcopy_edge_violated"
   ],
   "note": "BGFILL and BGCLR proved; BGCOPY proved inside the map; refuted beyond it (C28_bgcopy_violated, C28_bgcopy_edge_violated)."
  },
  {
   "property": "C29",
   "status": "partial",
   "theorems": [
    "Sbc.Graphics.C29_index",
    "Sbc.Graphics.C29_gspoit",
    "Sbc.Graphics.C29_gpset",
    "Sbc.Graphics.C29_color_checked",
    "Sbc.Graphics.C29_gcls",
    "Sbc.Graphics.C29_fill_partial",
    "Sbc.Graphics.C29_offscreen_violated",
    "Sbc.Graphics.C29_box_partial",
    "Sbc.Graphics.C29_gpage",
    "Sbc.Graphics.C29_gpage_checked",
    "Sbc.Graphics.C29_gpage_violated"
   ],
   "note": "Index bijection, GSPOIT/GPSET/GCLS in full; GFILL/GBOX proved for coordinates on the screen; refuted off the screen (negative coordinates are moved to the edge)."
  },
  {
   "property": "C30",
   "status": "proved",
   "theorems": [
    "Sbc.Graphics.C30_dots",
    "Sbc.Graphics.C30_involution"
   ],
   "note": ""
  },
  {
   "property": "C31",
   "status": "partial",
   "theorems": [
    "Sbc.Machine.C31_return",
    "Sbc.Machine.C31_discards_loops",
    "Sbc.Machine.C31_depth",
    "Sbc.Machine.C31_gosub",
    "Sbc.Machine.C31_return_in_loop_violated"
   ],
   "note": "Return address, discarding of loops and depth limit proved for every execution; refuted for RETURN executed while a loop of the caller is still on the call stack (C31_return_in_loop_violated)."
  },
  {
   "property": "C32",
   "status": "partial",
   "theorems": [
    "Sbc.Machine.C32_values",
    "Sbc.Machine.C32_overflow",
    "Sbc.Machine.C32_forever",
    "Sbc.Machine.C32_terminates",
    "Sbc.Machine.C32_skip_partial",
    "Sbc.Machine.C32_leak_violated",
    "Sbc.Machine.C32_named_violated",
    "Sbc.Machine.C32_inner_violated"
   ],
   "note": "Values, overflow, termination and skipping proved for every loop whose body leaves the loop variable alone; refuted: leaving a loop by GOTO leaks call stack entries, NEXT with another variable, and NEXT with the variable of an outer loop while an inner one is open."
  },
  {
   "property": "C33",
   "status": "partial",
   "theorems": [
    "Sbc.Machine.C33_on",
    "Sbc.Machine.C33_variable_violated"
   ],
   "note": "Proved for label lists; refuted for a string variable in the list, whose storage is taken for the label (C33_variable_violated)."
  },
  {
   "property": "C34",
   "status": "proved",
   "theorems": [
    "Sbc.Tok.C34_constant",
    "Sbc.Tok.C34_decimal",
    "Sbc.Tok.C34_hexadecimal",
    "Sbc.Tok.C34_binary"
   ],
   "note": "Proved in full."
  },
  {
   "property": "C35",
   "status": "partial",
   "theorems": [
    "Sbc.Tok.Spec.C35_program",
    "Sbc.Tok.C35_line_partial",
    "Sbc.Tok.C35_scan",
    "Sbc.Tok.C35_scan_first",
    "Sbc.Tok.C35_scan_none",
    "Sbc.Tok.C35_long_name_violated",
    "Sbc.Tok.C35_long_data_violated"
   ],
   "note": "Per line for all token lists (C35_line_partial), and for whole programs from the source text: every program compiles to well-formed instructions with labels at instructions (C35_program); refuted for names and DATA texts beyond the 8-bit length field (C35_long_name_violated, C35_long_data_violated)."
  },
  {
   "property": "C36",
   "status": "partial",
   "theorems": [
    "Sbc.Props.Expr.C36_line_compiles_to_postfix_partial",
    "Sbc.Props.Expr.C36_postfix_has_tree_value",
    "Sbc.Props.Expr.C36_assignment_value_partial",
    "Sbc.Props.Expr.C36_unambiguous",
    "Sbc.Props.Expr.C36_minus_after_base_number_violated",
    "Sbc.Props.Expr.C36_minus_after_bracket_violated",
    "Sbc.Props.Expr.C36_deep_nesting_violated"
   ],
   "note": "Proved for all expressions within the compiler stack; refuted: minus after a hexadecimal constant or a bracket, and nesting deeper than the stack."
  },
  {
   "property": "C37",
   "status": "partial",
   "theorems": [
    "Sbc.Machine.C37_line",
    "Sbc.Machine.C37_compile",
    "Sbc.Machine.C37_read",
    "Sbc.Machine.C37_out_of_data",
    "Sbc.Machine.C37_failure",
    "Sbc.Machine.C37_overrun_violated",
    "Sbc.Machine.C37_restore",
    "Sbc.Machine.C37_restore_missing",
    "Sbc.Machine.C37_start",
    "Sbc.Machine.C37_between",
    "Sbc.Machine.C37_long_number_violated",
    "Sbc.Machine.C37_quoted_blank_violated"
   ],
   "note": "Proved for all programs, positions and READ lists with enough items; refuted: reading past the last item inside one READ is not reported, numbers of more than 16 characters are split, quoted numbers with leading blanks are 0."
  },
  {
   "property": "C38",
   "status": "partial",
   "theorems": [
    "Sbc.MemApi.C38_poke_arm",
    "Sbc.MemApi.C38_peek_arm",
    "Sbc.MemApi.C38_pokeb_pc_partial",
    "Sbc.MemApi.C38_poke_pc_violated",
    "Sbc.MemApi.C38_convert_pc_violated",
    "Sbc.MemApi.C38_poke_peek",
    "Sbc.MemApi.C38_memcopy",
    "Sbc.MemApi.C38_memfill",
    "Sbc.MemApi.C38_memcopy_accepts",
    "Sbc.MemApi.C38_memcopy_adjacent_violated"
   ],
   "note": "Proved for the NDS address map (arm) and, on PC, for byte access, MEMCOPY and MEMFILL; refuted on PC: PEEK/POKE at the last addresses of a region touch bytes outside it, conversion of the lowest numbers overflows, adjacent MEMCOPY ranges are refused."
  },
  {
   "property": "C39",
   "status": "proved",
   "theorems": [
    "Sbc.Res.C39_set",
    "Sbc.Res.C39_write_back",
    "Sbc.Res.C39_refused"
   ],
   "note": "Proved in full: every digit string is stored as the right bytes of the right character, nothing else changes, reading back gives the digits, invalid numbers and lengths are refused."
  },
  {
   "property": "C40",
   "status": "partial",
   "theorems": [
    "Sbc.Res.C40_set",
    "Sbc.Res.C40_stable",
    "Sbc.Res.C40_names",
    "Sbc.Res.C40_wide_violated"
   ],
   "note": "Proved for 8-bit strings (5/6/5-bit reduction, stability of COLREAD then COLSET); refuted for 16-bit strings (C40_wide_violated)."
  },
  {
   "property": "C41",
   "status": "partial",
   "theorems": [
    "Sbc.Res.C41_names",
    "Sbc.Res.C41_distinct",
    "Sbc.Res.C41_current",
    "Sbc.Res.C41_grp",
    "Sbc.Res.C41_rest",
    "Sbc.Res.C41_default",
    "Sbc.Res.C41_resolves",
    "Sbc.Res.C41_typed",
    "Sbc.Res.C41_untyped",
    "Sbc.Res.C41_refused",
    "Sbc.Res.C41_redraw_partial",
    "Sbc.Res.C41_no_bank_violated",
    "Sbc.Res.C41_unchecked_violated",
    "Sbc.Res.C41_type_only"
   ],
   "note": "Name grammar, resolution, distinctness and refusal proved for LOAD, SAVE, APPEND. Refuted: names without a bank resolve to the upper screen while the redraw mark goes to the current page (C41_no_bank_violated); CHRINIT, CHRREAD, CHRSET, GPUTCHR do not verify types (C41_unchecked_violated)."
  },
  {
   "property": "C42",
   "status": "proved",
   "theorems": [
    "Sbc.Input.C42_buttons",
    "Sbc.Input.C42_select_break",
    "Sbc.Input.C42_brepeat"
   ],
   "note": ""
  },
  {
   "property": "C43",
   "status": "partial",
   "theorems": [
    "Sbc.Bg.C43_bgofs_partial",
    "Sbc.Bg.C43_bgofs_jump",
    "Sbc.Bg.C43_bgofs_checked",
    "Sbc.Bg.C43_bgofs_violated",
    "Sbc.Bg.C43_bgofs_overflow_violated",
    "Sbc.Sprites.C43_spofs_partial",
    "Sbc.Sprites.C43_spofs_jump",
    "Sbc.Sprites.C43_spofs_violated",
    "Sbc.Sprites.C43_spofs_overflow_violated"
   ],
   "note": "BGOFS and SPOFS: exact position at every frame proved; refuted when the distance is not divisible by the time (rounding) and when the difference overflows."
  },
  {
   "property": "C44",
   "status": "partial",
   "theorems": [
    "Sbc.Sprites.C44_resting",
    "Sbc.Sprites.C44_sphit",
    "Sbc.Sprites.C44_sphitsp",
    "Sbc.Sprites.C44_checked",
    "Sbc.Sprites.C44_stale_violated"
   ],
   "note": "SPHIT/SPHITSP proved to decide the swept collision of the hit rectangles and to report the least sprite (separating axis theorem proved over the rationals); refuted: a finished movement still counts as displacement (C44_stale_violated)."
  },
  {
   "property": "C45",
   "status": "partial",
   "theorems": [
    "Sbc.Files.C45_save_load_partial",
    "Sbc.Files.C45_program_violated"
   ],
   "note": "Proved for all resources but programs; SAVE of a program follows a wild pointer (C45_program_violated). Compressed (SBCC) files are not part of this model."
  },
  {
   "property": "C46",
   "status": "partial",
   "theorems": [
    "Sbc.StrPool.C46_swap_strings",
    "Sbc.Swap.C46_swap_exchanges",
    "Sbc.Swap.C46_swap_twice",
    "Sbc.Swap.C46_swap_sysvar_violated"
   ],
   "note": "Exchange, frame and involution proved for strings (pool) and for cells of memory; refuted for system variables where pointers have 8 bytes."
  },
  {
   "property": "C47",
   "status": "partial",
   "theorems": [
    "Sbc.Strs.C47_dtread_partial",
    "Sbc.Strs.C47_tmread_partial",
    "Sbc.Strs.C47_wide_violated"
   ],
   "note": "Proved for 8-bit strings; refuted for wide strings."
  },
  {
   "property": "C48",
   "status": "partial",
   "theorems": [
    "Sbc.Machine.C48_true",
    "Sbc.Machine.C48_false_else",
    "Sbc.Machine.C48_false_end",
    "Sbc.Machine.C48_else",
    "Sbc.Machine.C48_if_else_partial",
    "Sbc.Machine.C48_if_then_partial",
    "Sbc.Machine.C48_label",
    "Sbc.Machine.C48_nested",
    "Sbc.Machine.C48_restore_violated",
    "Sbc.Machine.Sample.C48_nested_violated"
   ],
   "note": "The rule each line follows is proved in full (C48_true, C48_false_else, C48_false_end, C48_else), and for IFs not sharing a line with another IF it is the documented one; refuted for two IFs on a line (an ELSE belongs to both) and for IF ... THEN RESTORE @L."
  },
  {
   "property": "C49",
   "status": "partial",
   "theorems": [
    "Sbc.Sprites.C49_exact",
    "Sbc.Sprites.C49_sprite",
    "Sbc.Sprites.C49_independent_partial",
    "Sbc.Sprites.C49_steady",
    "Sbc.Sprites.C49_violated"
   ],
   "note": "Proved for frames in which no animation ends, with an exact description of all frames; refuted otherwise (C49_violated: break leaves the sprite loop)."
  },
  {
   "property": "C50",
   "status": "partial",
   "theorems": [
    "Sbc.Props.Check.C50_check_iff_match_partial",
    "Sbc.Props.Check.C50_check_iff_match",
    "Sbc.Props.Check.C50_all_commands_covered",
    "Sbc.Props.Check.C50_commands_exact",
    "Sbc.Props.Check.C50_line_accepted_iff_partial",
    "Sbc.Props.Check.C50_missing_list_accepted_violated",
    "Sbc.Props.Check.C50_long_statement_undefined_violated",
    "Sbc.Props.Check.C50_empty_arguments_undefined_violated"
   ],
   "note": "Accepted iff matching proved; refuted: an omitted variable argument list is accepted, and argument lists longer than the buffer or empty read outside it."
  },
  {
   "property": "C51",
   "status": "partial",
   "theorems": [
    "Sbc.Arith.C51_rnd",
    "Sbc.Arith.C51_floor",
    "Sbc.Arith.C51_abs",
    "Sbc.Arith.C51_sgn_abs",
    "Sbc.Arith.C51_rad",
    "Sbc.Arith.C51_deg_partial",
    "Sbc.Arith.C51_deg_violated"
   ],
   "note": "Proved for FLOOR, ABS, SGN, RND, RAD for all arguments and DEG for arguments whose result fits; DEG is refuted beyond (C51_deg_violated)."
  },
  {
   "property": "C52",
   "status": "partial",
   "theorems": [
    "Sbc.Graphics.C52_line_partial",
    "Sbc.Graphics.C52_line_safe",
    "Sbc.Graphics.C52_long_violated"
   ],
   "note": "Proved for lines of up to the length where the accumulated slope error stays below one dot; no undefined behaviour for any on-screen line; refuted for long lines (C52_long_violated)."
  },
  {
   "property": "C53",
   "status": "proved",
   "theorems": [
    "Sbc.Graphics.C53_gcopy"
   ],
   "note": ""
  },
  {
   "property": "C54",
   "status": "partial",
   "theorems": [
    "Sbc.Graphics.C54_paint_partial",
    "Sbc.Graphics.C54_border_violated",
    "Sbc.Graphics.C54_on_border_violated",
    "Sbc.Graphics.C54_offscreen_violated",
    "Sbc.Graphics.C54_read_violated"
   ],
   "note": "Proved for start dots on the screen that may be painted over and a paint colour that may not; refuted for a border in another colour, a start on the border, a start off the screen."
  },
  {
   "property": "C55",
   "status": "partial",
   "theorems": [
    "Sbc.Graphics.C55_gputchr_partial",
    "Sbc.Graphics.C55_first_row_violated"
   ],
   "note": "Proved below the first row of the screen; refuted: row 0 is never drawn (C55_first_row_violated)."
  },
  {
   "property": "C56",
   "status": "proved",
   "theorems": [
    "Sbc.Sprites.C56_setv_getv",
    "Sbc.Sprites.C56_new"
   ],
   "note": ""
  },
  {
   "property": "C57",
   "status": "proved",
   "theorems": [
    "Sbc.Sprites.C57_animation",
    "Sbc.Sprites.C57_started"
   ],
   "note": ""
  },
  {
   "property": "C58",
   "status": "partial",
   "theorems": [
    "Sbc.Sprites.C58_spclr",
    "Sbc.Sprites.C58_spclr_all",
    "Sbc.Sprites.C58_refused_partial",
    "Sbc.Sprites.C58_violated",
    "Sbc.Sprites.C58_bounds_violated",
    "Sbc.Sprites.C58_spscale_violated"
   ],
   "note": "Proved for the commands that check; refuted: SPCHR/SPANIM act on missing sprites, SPCLR/SPPAGE unchecked, SPSCALE rejects sprites 32..99."
  },
  {
   "property": "C59",
   "status": "partial",
   "theorems": [
    "Sbc.Sprites.C59_spscale_partial",
    "Sbc.Sprites.C59_spscale_violated",
    "Sbc.Sprites.C59_spangle_violated"
   ],
   "note": "Exact behaviour proved; refuted: one step too many, time 0 divides by zero, default turning direction leads away from the target."
  },
  {
   "property": "C60",
   "status": "partial",
   "theorems": [
    "Sbc.Tok.C60_overflow_partial",
    "Sbc.Tok.C60_overflow_violated"
   ],
   "note": "Proved for the literals the compiler checks; refuted: 524288 to 999999 pass in some forms (C60_overflow_violated)."
  },
  {
   "property": "C61",
   "status": "partial",
   "theorems": [
    "Sbc.Machine.C61_dim_partial",
    "Sbc.Machine.C61_later_violated",
    "Sbc.Machine.C61_recorded"
   ],
   "note": "Proved for states in which no array error was recorded; refuted: once recorded, the error is reported by every later DIM (C61_later_violated)."
  },
  {
   "property": "C62",
   "status": "proved",
   "theorems": [
    "Sbc.Machine.C62_on_instruction",
    "Sbc.Machine.C62_fetch",
    "Sbc.Machine.C62_frames"
   ],
   "note": "Proved for every program satisfying Compiled (what the compiler emits)."
  },
  {
   "property": "C63",
   "status": "partial",
   "theorems": [
    "Sbc.Sys.C63_pointers_partial",
    "Sbc.Sys.C63_cells_distinct",
    "Sbc.Sys.C63_constants",
    "Sbc.Sys.C63_accepted_violated",
    "Sbc.Sys.C63_store_violated"
   ],
   "note": "Exactly the writable system variables hand out pointers, constants never change (proved); refuted: the compiler accepts an assignment to every numeric system variable and executing it writes through the value as an address (C63_accepted_violated, C63_store_violated)."
  },
  {
   "property": "C64",
   "status": "proved",
   "theorems": [
    "Sbc.MemApi.C64_ptr"
   ],
   "note": "Proved in full."
  },
  {
   "property": "C65",
   "status": "partial",
   "theorems": [
    "Sbc.Files.C65_save",
    "Sbc.Files.C65_load",
    "Sbc.Files.C65_append",
    "Sbc.Files.C65_one_file",
    "Sbc.Files.C65_exec_violated"
   ],
   "note": "Proved for SAVE, LOAD, APPEND; refuted for EXEC (C65_exec_violated)."
  },
  {
   "property": "C66",
   "status": "partial",
   "theorems": [
    "Sbc.Files.C66_missing",
    "Sbc.Files.C66_missing_program",
    "Sbc.Files.C66_type_violated",
    "Sbc.Files.C66_truncated_violated",
    "Sbc.Files.C66_mem_violated"
   ],
   "note": "Missing files proved harmless; refuted for wrong types, truncated programs and MEM files with a wrong length field."
  },
  {
   "property": "C67",
   "status": "partial",
   "theorems": [
    "Sbc.Files.C67_program",
    "Sbc.Files.C67_size_violated"
   ],
   "note": "Proved for both file formats, all masks; the size field is not checked, so longer texts overflow (C67_size_violated)."
  },
  {
   "property": "C68",
   "status": "proved",
   "theorems": [
    "Sbc.Files.C68_append",
    "Sbc.Files.C68_safe"
   ],
   "note": "Proved in full."
  },
  {
   "property": "C69",
   "status": "proved",
   "theorems": [
    "Sbc.Files.C69_package"
   ],
   "note": "Proved in full."
  },
  {
   "property": "C70",
   "status": "proved",
   "theorems": [
    "Sbc.Arrays.C70_implicit"
   ],
   "note": "Proved for every admissible history of DIM and element accesses."
  },
  {
   "property": "C71",
   "status": "partial",
   "theorems": [
    "Sbc.Sys.C71_effect",
    "Sbc.Sys.C71_valid_partial",
    "Sbc.Sys.C71_buttons",
    "Sbc.Sys.C71_keeps",
    "Sbc.Sys.C71_violated"
   ],
   "note": "Effect of every line described exactly (C71_effect); ranges proved for lines that do not assign an invalid ICONPMAX or ICONPMAX alone; refuted otherwise and for reading back TABSTEP (C71_violated)."
  },
  {
   "property": "C72",
   "status": "partial",
   "theorems": [
    "Sbc.Sys.C72_time_partial",
    "Sbc.Sys.C72_low_partial",
    "Sbc.Sys.C72_negative_violated"
   ],
   "note": "The two counters determine the time; refuted: MAINCNTL is negative in every second half of its period."
  },
  {
   "property": "C73",
   "status": "proved",
   "theorems": [
    "Sbc.Sys.C73_freemem"
   ],
   "note": "Proved in full (for the defect-free DIM requests of C06)."
  },
  {
   "property": "C74",
   "status": "proved",
   "theorems": [
    "Sbc.Sys.C74_time",
    "Sbc.Sys.C74_date",
    "Sbc.Sys.C74_length"
   ],
   "note": "Proved in full."
  },
  {
   "property": "C75",
   "status": "proved",
   "theorems": [
    "Sbc.Sys.C75_visible",
    "Sbc.Sys.C75_refused"
   ],
   "note": "Proved in full."
  },
  {
   "property": "C76",
   "status": "proved",
   "theorems": [
    "Sbc.Sys.C76_wait"
   ],
   "note": "Proved in full, for the loop; the sleeping between two checks is not modelled."
  },
  {
   "property": "C77",
   "status": "partial",
   "theorems": [
    "Sbc.Tok.Spec.C77_line_partial",
    "Sbc.Tok.Spec.C77_unique",
    "Sbc.Tok.Spec.C77_unambiguous",
    "Sbc.Tok.Spec.C77_long_name_violated",
    "Sbc.Tok.Spec.C77_long_line_violated"
   ],
   "note": "Proved for every line whose words are not one of the few names that continue a keyword of eight letters into the next table entry (C77_long_name_violated) and with at most 99 words (C77_long_line_violated: the token array overflows)."
  },
  {
   "property": "C78",
   "status": "proved",
   "theorems": [
    "Sbc.Tok.Spec.C78_terminates",
    "Sbc.Tok.Spec.C78_progress",
    "Sbc.Tok.Spec.C78_inside"
   ],
   "note": "Proved for all texts (termination, progress) and for all programs of lines of at most 99 characters that do not run on (staying inside)."
  },
  {
   "property": "C79",
   "status": "partial",
   "theorems": [
    "Sbc.Tok.Spec.C79_lines_joined",
    "Sbc.Tok.Spec.C79_alone",
    "Sbc.Tok.Spec.C79_lines_run_on_violated"
   ],
   "note": "Proved for all programs (compiled without variable ids) whose lines do not end with &H, @ or LABEL; refuted for those and for a last line without its end (C79_lines_run_on_violated)."
  },
  {
   "property": "C80",
   "status": "partial",
   "theorems": [
    "Sbc.Display.C80_chrset_partial",
    "Sbc.Display.C80_colset",
    "Sbc.Display.C80_white_violated"
   ],
   "note": "Proved for CHRSET of a resource with a bank number and every COLSET; refuted: COLREAD reports 255 for components shown as 248 or 252 (C80_white_violated)."
  },
  {
   "property": "C81",
   "status": "partial",
   "theorems": [
    "Sbc.Display.C81_layer_partial",
    "Sbc.Display.C81_hidden",
    "Sbc.Display.C81_negative",
    "Sbc.Display.C81_negative_violated",
    "Sbc.Display.C81_bgclip",
    "Sbc.Display.C81_bgclip_checked",
    "Sbc.Display.C81_clip_violated"
   ],
   "note": "Proved for offsets that are not negative or are multiples of 8 dots; refuted for others (one tile off) and for BGCLIP, which the PC display ignores."
  },
  {
   "property": "C82",
   "status": "partial",
   "theorems": [
    "Sbc.Display.C82_upper_partial",
    "Sbc.Display.C82_lower_partial",
    "Sbc.Display.C82_keys_partial",
    "Sbc.Display.C82_cursor"
   ],
   "note": "Proved for both screens at every pixel given the layers of the sprites (C83), for the offsets of C81."
  },
  {
   "property": "C83",
   "status": "partial",
   "theorems": [
    "Sbc.Display.C83_scaled_partial",
    "Sbc.Display.C83_plain",
    "Sbc.Display.C83_sprites_partial",
    "Sbc.Display.C83_lower_partial",
    "Sbc.Display.C83_hidden"
   ],
   "note": "Proved for sprites without rotation, at any scale (0 to 200%), in front order of the PC version; rotated sprites are an arbitrary layer."
  },
  {
   "property": "C84",
   "status": "partial",
   "theorems": [
    "Sbc.Display.C84_starts",
    "Sbc.Display.C84_fresh_partial",
    "Sbc.Display.C84_poke_violated",
    "Sbc.Display.C84_no_bank_violated"
   ],
   "note": "Proved for histories of CHRSET, COLSET, LOAD, CHRINIT, COLINIT and frames with bank numbers in the names; refuted for POKE (C84_poke_violated) and for names without bank on page 1 (C84_no_bank_violated)."
  },
  {
   "property": "C85",
   "status": "proved",
   "theorems": [
    "Sbc.Source.C85_program"
   ],
   "note": "Proved for all programs of the statements listed, in every layout; the code must fit in the program buffer (524288 bytes); a loop that does not run at all goes on after its NEXT, as the text says (no meaning if FOR or NEXT within an IF are on the way, or if the search leaves a branch of an IF); NEXT that goes on with another loop than the last one begun has no meaning (C32_inner_violated), but may end it; strings, string variables, functions of up to three arguments and read-only system variables are included, and DATA, READ and RESTORE (a READ that runs out of items after its first variable has no meaning, see C37_overrun_violated); DIM (of one or several arrays) and arrays of one or two dimensions, as elements in expressions and as targets of assignments and of READ, are included (used with as many subscripts as they have dimensions, after their DIM, within the room that the theorem has as a parameter); RND (it changes the generator) and arrays as targets of FOR are not part of this source language. Exhaustion of the string pool is not described."
  },
  {
   "property": "C86",
   "status": "proved",
   "theorems": [
    "Sbc.Source.C86_forever",
    "Sbc.Source.C86_ends"
   ],
   "note": "Proved in full for the programs of C85."
  },
  {
   "property": "C87",
   "status": "partial",
   "theorems": [
    "Sbc.Source.C87_print_else_violated",
    "Sbc.Source.C87_print_on_violated",
    "Sbc.Source.C87_dim_else_violated",
    "Sbc.Source.C87_then_restore_violated"
   ],
   "note": "Refuted: PRINT before ELSE (C87_print_else_violated, C87_print_on_violated), DIM before ELSE (C87_dim_else_violated), and RESTORE as the first statement after THEN or ELSE (C87_then_restore_violated). C85 covers all other combinations."
  },
  {
   "property": "C88",
   "status": "proved",
   "theorems": [
    "Sbc.Machine.C88_ids"
   ],
   "note": "Proved for every variable, array element and whole array token; DIM is always compiled by name."
  },
  {
   "property": "C89",
   "status": "partial",
   "theorems": [
    "Sbc.Sprites.C89_spchr",
    "Sbc.Sprites.C89_spchr_all",
    "Sbc.Sprites.C89_spset",
    "Sbc.Sprites.C89_sphome",
    "Sbc.Sprites.C89_spcol",
    "Sbc.Sprites.C89_spcolvec",
    "Sbc.Sprites.C89_at_once",
    "Sbc.Sprites.C89_out_of_range",
    "Sbc.Sprites.C89_spread_violated",
    "Sbc.Sprites.C89_sphome_violated",
    "Sbc.Sprites.C89_spread_partial",
    "Sbc.Sprites.C89_spchk_violated"
   ],
   "note": "Proved for arguments in the documented ranges and out-of-range sprite numbers; refuted: SPREAD character and scale, SPCHK after SPSET, SPHOME out of range."
  },
  {
   "property": "C90",
   "status": "partial",
   "theorems": [
    "Sbc.Sys.C90_names",
    "Sbc.Sys.C90_numbers_partial",
    "Sbc.Sys.C90_others",
    "Sbc.Sys.C90_violated",
    "Sbc.Sys.C90_all"
   ],
   "note": "Proved for 29 of the 33 names; SPHITX, SPHITY, SPHITT and ERL are refuted (C90_violated)."
  },
  {
   "property": "C91",
   "status": "proved",
   "theorems": [
    "Sbc.Source.C91_loop",
    "Sbc.Source.C91_none"
   ],
   "note": "Proved for all values, bodies of commands and numbers of rounds (C91_loop), and for a first value past the limit with any body without loops (C91_none); other bodies (nested loops, subroutines, IF) are covered by C85."
  },
  {
   "property": "C92",
   "status": "partial",
   "theorems": [
    "Sbc.LineInput.C92_editor_partial",
    "Sbc.LineInput.C92_bottom_violated",
    "Sbc.LineInput.C92_insert_violated",
    "Sbc.LineInput.C92_lost_violated"
   ],
   "note": "Proved for empty rows; refuted: BACKSPACE in a full line in the last row (C92_bottom_violated), the INSERT key (C92_insert_violated), a character together with L or R (C92_lost_violated)."
  },
  {
   "property": "C93",
   "status": "partial",
   "theorems": [
    "Sbc.LineInput.C93_linput_partial",
    "Sbc.LineInput.C93_old_text_violated",
    "Sbc.LineInput.C93_corner_violated",
    "Sbc.LineInput.C93_break_violated"
   ],
   "note": "Proved for screens with nothing from the cursor on and prompts that end inside a row; refuted: old text in the row (C93_old_text_violated), the last cell of the screen (C93_corner_violated), BREAK in a full line (C93_break_violated)."
  },
  {
   "property": "C94",
   "status": "partial",
   "theorems": [
    "Sbc.LineInput.C94_input_partial",
    "Sbc.LineInput.C94_kinds",
    "Sbc.LineInput.C94_long_violated",
    "Sbc.LineInput.C94_string_violated",
    "Sbc.LineInput.C94_space_violated"
   ],
   "note": "Proved for lines of up to 31 characters whose numeric fields are in range with at most six decimals, after any number of refused lines; the kinds of the values are proved for every input (C94_kinds); refuted: 32 digits, strings of 32 characters, spaces."
  },
  {
   "property": "C95",
   "status": "partial",
   "theorems": [
    "Sbc.Panel.C95_typing_partial",
    "Sbc.Panel.C95_slide_violated",
    "Sbc.Panel.C95_page",
    "Sbc.Panel.C95_hidden_violated"
   ],
   "note": "Proved for all sequences of touches that each stay on one key; violated: sliding from a key to a place without one reads out of bounds, hidden page buttons work."
  },
  {
   "property": "C96",
   "status": "partial",
   "theorems": [
    "Sbc.Panel.C96_pnlstr",
    "Sbc.Panel.C96_key",
    "Sbc.Panel.C96_icons",
    "Sbc.Panel.C96_icon_range",
    "Sbc.Panel.C96_icon64_violated",
    "Sbc.Panel.C96_iconchk",
    "Sbc.Panel.C96_start"
   ],
   "note": "PNLSTR, KEY, ICONSET/ICONCLR histories, ICONCHK and the start are proved in full; partial because ICONSET accepts icon 64."
  },
  {
   "property": "C97",
   "status": "partial",
   "theorems": [
    "Sbc.Panel.C97_pnltype_partial",
    "Sbc.Panel.C97_off_pnl_violated",
    "Sbc.Panel.C97_input_violated"
   ],
   "note": "Selection is proved in full; the picture fits except between OFF and PNL and after INPUT (violated). The drawing of the picture files is not modelled."
  },
  {
   "property": "C98",
   "status": "partial",
   "theorems": [
    "Sbc.RealMath.C98_sin",
    "Sbc.RealMath.C98_cos",
    "Sbc.RealMath.C98_atan",
    "Sbc.RealMath.C98_atan2",
    "Sbc.RealMath.C98_tan_partial",
    "Sbc.RealMath.C98_exp_partial",
    "Sbc.RealMath.C98_exp_violated",
    "Sbc.RealMath.C98_tan_violated",
    "Sbc.RealMath.C98_sqr_violated",
    "Sbc.RealMath.C98_sqr_partial",
    "Sbc.RealMath.C98_log",
    "Sbc.RealMath.C98_pow_partial",
    "Sbc.RealMath.C98_pow_nan_violated",
    "Sbc.RealMath.C98_pow_single_violated"
   ],
   "note": "SIN, COS, ATAN, LOG in full; SQR, TAN, EXP, POW inside domain and range; violated: results outside the range and arguments outside the domain are converted (undefined) instead of reported, POW has single precision. Accuracy of the C library is a hypothesis."
  },
  {
   "property": "C99",
   "status": "partial",
   "theorems": [
    "Sbc.Tok.Spec.C99_size",
    "Sbc.Tok.Spec.C99_room_partial",
    "Sbc.Tok.Spec.C99_room_violated",
    "Sbc.Tok.Spec.C99_lines",
    "Sbc.Tok.Spec.C99_max_lines",
    "Sbc.Tok.Spec.C99_launcher_violated",
    "Sbc.Tok.Spec.C99_labels_partial",
    "Sbc.Tok.Spec.C99_labels_violated"
   ],
   "note": "For every text: code at most three times as long as the text, table of lines large enough; @-labels counted. Violated: a program of 500000 characters overflows the code memory; the launcher's table of lines is empty; LABEL lines are not counted."
  },
  {
   "property": "C100",
   "status": "partial",
   "theorems": [
    "Sbc.Touch.C100_touch_partial",
    "Sbc.Touch.C100_time_violated",
    "Sbc.Touch.C100_mouse_partial",
    "Sbc.Touch.C100_release_violated",
    "Sbc.Touch.C100_window_violated"
   ],
   "note": "Every history of frames. Violated: TCHTIME after 524288 frames, a mouse released outside the lower screen stays pressed, division by zero in a window of one line."
  },
  {
   "property": "C101",
   "status": "partial",
   "theorems": [
    "Sbc.Acls.C101_acls",
    "Sbc.Acls.C101_error_violated",
    "Sbc.Acls.C101_deep_violated"
   ],
   "note": "From every state with at most 254 subroutines or loops under way. Violated when a command fails or 255 are under way: the variables are lost."
  },
  {
   "property": "C102",
   "status": "partial",
   "theorems": [
    "Sbc.Launch.C102_lines",
    "Sbc.Launch.C102_select_violated",
    "Sbc.Launch.C102_overflow_violated",
    "Sbc.Launch.C102_edit_violated"
   ],
   "note": "All histories without SELECT. Violated with SELECT at the prompt (line executed again, buffer overrun); EDIT mode unreachable."
  },
  {
   "property": "C103",
   "status": "partial",
   "theorems": [
    "Sbc.Launch.C103_close_partial",
    "Sbc.Launch.C103_close_instr_partial",
    "Sbc.Launch.C103_close_top_partial",
    "Sbc.Launch.C103_compile_error",
    "Sbc.Launch.C103_close_violated",
    "Sbc.Launch.C103_hangs_violated",
    "Sbc.Launch.C103_select_partial",
    "Sbc.Launch.C103_select_violated"
   ],
   "note": "For requests at the listed places. Violated: requests at the other places are lost, the system hangs."
  },
  {
   "property": "C104",
   "status": "proved",
   "theorems": [
    "Sbc.Launch.C104_message",
    "Sbc.Launch.C104_fits",
    "Sbc.Launch.C104_distinct"
   ],
   "note": ""
  },
  {
   "property": "C105",
   "status": "proved",
   "theorems": [
    "Sbc.Devices.C105_screens"
   ],
   "note": "For the listed commands and for arguments where they are correct (not: GBOX and GFILL with corners left of or above the screen, GBOX in XOR mode, GLINE in other directions than horizontal, vertical and diagonal, COLOR outside 0-15; C25-C28 give the defects). From tokens in text form to dots and cells. Strings are their characters; the string pool, its exhaustion and wide strings are not part of this theorem (C20-C22)."
  },
  {
   "property": "C106",
   "status": "partial",
   "theorems": [
    "Sbc.Named.C106_named_partial",
    "Sbc.Named.C106_clear_fresh",
    "Sbc.Named.C106_clear_values",
    "Sbc.Named.C106_loop_violated"
   ],
   "note": "Proved for all histories of valid requests. Missing: requests that the interpreter does not check (refuted in C04-C06). Refuted: CLEAR inside a FOR loop leaves the loop working on a place that another variable gets (C106_loop_violated)."
  },
  {
   "property": "C107",
   "status": "partial",
   "theorems": [
    "Sbc.Initial.C107_startup",
    "Sbc.Initial.C107_chrinit",
    "Sbc.Initial.C107_chrinit_restores",
    "Sbc.Initial.C107_redraw_partial",
    "Sbc.Initial.C107_chrinit_errors",
    "Sbc.Initial.C107_colinit",
    "Sbc.Initial.C107_colinit_name",
    "Sbc.Initial.C107_color_violated"
   ],
   "note": "Proved for files that are not compressed. Missing: the redraw flag for names without a bank (refuted, C41_no_bank_violated). Refuted: COLINIT with one colour uses a stale stack entry as the number of the colour (C107_color_violated)."
  },
  {
   "property": "C108",
   "status": "partial",
   "theorems": [
    "Sbc.Blocks.C108_blocks_partial",
    "Sbc.Blocks.C108_disjoint_partial",
    "Sbc.Blocks.C108_startup",
    "Sbc.Blocks.C108_exhausted_violated",
    "Sbc.Blocks.C108_alignment_violated"
   ],
   "note": "Proved for all histories whose requests fit. Refuted: a request beyond the end of the block is not refused (C108_exhausted_violated); tables can be misaligned (C108_alignment_violated). Not modelled: the platform's malloc that provides the block (assumed to succeed)."
  },
  {
   "property": "C109",
   "status": "partial",
   "theorems": [
    "Sbc.Circle.C109_circle_partial",
    "Sbc.Circle.C109_circle",
    "Sbc.Circle.C109_color",
    "Sbc.Circle.C109_negative",
    "Sbc.Circle.C109_xor_violated",
    "Sbc.Circle.C109_arc_violated"
   ],
   "note": "Proved in normal drawing mode for all centres and radii from 0, assuming a C library accurate to 40 binary digits and correctly rounded double arithmetic without fused operations. Refuted: XOR mode (joints drawn twice), the form with angles. Negative radii: only that -16 and below draw nothing."
  },
  {
   "property": "C110",
   "status": "partial",
   "theorems": [
    "Sbc.Listing.C110_files_partial",
    "Sbc.Listing.C110_usable",
    "Sbc.Listing.C110_filter_violated",
    "Sbc.Listing.C110_names_violated",
    "Sbc.Listing.C110_type_violated"
   ],
   "note": "Proved for directories whose entries have a dot and fewer than 128 characters before it. Refuted: filter, names, type argument. That argcount is 0 when a command runs is read off the compiler (tokens.c) and runner.c:551, not proved."
  }
 ]
}