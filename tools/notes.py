NA={}
STATUS={}
SHARED={'C05':['Sbc.Arrays.C04_arrays_refine_tables_partial'],'C06':['Sbc.Arrays.C04_arrays_refine_tables_partial']}
NOTES={
'C02':'Creation half proved in full. FREEVAR half false of the code (C02_freevar_violated): it counts arrays/variables with a different formula; partial theorem states what holds.',
'C04':'Proved for all histories avoiding the defective requests; refuted for two subscripts on a one-dimensional array (C04_two_subscripts_violated).',
'C05':'Proved outside the defective cases; refuted for 1-D arrays with two subscripts, second subscript -1, second dimension 0.',
'C06':'Proved outside the defective cases; refuted: failed DIM raises no error, element count computed modulo 2^32, negative dimension accepted.',
'C08':'Division/remainder by zero and sign law; refuted for the remainder (C08_modulo_violated).',
'C10':'Proved for every number but INT_MIN and fractions 4094/4096, 4095/4096; refuted for those (C10_str_violated).',
'C11':'Proved for numerals with at most six decimals and integer part below 524288, and absence of crashes with at most 31 decimals; refuted beyond (C11_val_violated).',
'C12':'Proved for every number STR$ prints correctly; refuted for the rest.',
'C16':'LEFT$/RIGHT$ in full; MID$ proved for arguments up to 32767, refuted beyond (C16_mid_violated).',
'C17':'Proved for non-negative start positions; refuted for negative ones (read outside the string).',
'C18':'Proved when the result fits 256 characters or the replacement itself overflows; refuted otherwise (257 characters written).',
'C19':'Proved in terms of 8-bit character codes for all strings; refuted for wide strings holding characters without an 8-bit code.',
'C47':'Proved for 8-bit strings; refuted for wide strings.',
'C21':'Multiset of rows preserved whenever SORT terminates, for distinct argument arrays; refuted when the same array is given twice (C21_duplicate_violated).',
'C22':'Ordering proved for the comparison and for arrays on which the partition loop ends; refuted: unsorted result (C22_sort_violated) and endless recursion (C22_diverges_violated).',
'C23':'Round trip, store format and optimal choice proved for all inputs; refuted: compressor writes one byte past the buffer and the decompressor over-reads one byte (C23_bounds_violated).',
'C24':'FIFO proved in full; INKEY$ refuted for one key order (C24_inkey_violated).',
'C25':'Proved for all PRINT/LOCATE/CLS/COLOR/TABSTEP programs with row at most 24; refuted: row 24 is reachable and INPUT then fails (C25_prompt_violated).',
'C29':'Index bijection, GSPOIT/GPSET/GCLS in full; GFILL/GBOX proved for coordinates on the screen; refuted off the screen (negative coordinates are moved to the edge).',
'C52':'Proved for lines of up to the length where the accumulated slope error stays below one dot; no undefined behaviour for any on-screen line; refuted for long lines (C52_long_violated).',
'C54':'Proved for start dots on the screen that may be painted over and a paint colour that may not; refuted for a border in another colour, a start on the border, a start off the screen.',
'C55':'Proved below the first row of the screen; refuted: row 0 is never drawn (C55_first_row_violated).',
'C27':'Proved in full.',
'C28':'BGFILL and BGCLR proved; BGCOPY proved inside the map; refuted beyond it (C28_bgcopy_violated, C28_bgcopy_edge_violated).',
'C43':'BGOFS and SPOFS: exact position at every frame proved; refuted when the distance is not divisible by the time (rounding) and when the difference overflows.',
'C44':'SPHIT/SPHITSP proved to decide the swept collision of the hit rectangles and to report the least sprite (separating axis theorem proved over the rationals); refuted: a finished movement still counts as displacement (C44_stale_violated).',
'C49':'Proved for frames in which no animation ends, with an exact description of all frames; refuted otherwise (C49_violated: break leaves the sprite loop).',
'C58':'Proved for the commands that check; refuted: SPCHR/SPANIM act on missing sprites, SPCLR/SPPAGE unchecked, SPSCALE rejects sprites 32..99.',
'C59':'Exact behaviour proved; refuted: one step too many, time 0 divides by zero, default turning direction leads away from the target.',

'C31':'Return address, discarding of loops and depth limit proved for every execution; refuted for RETURN executed while a loop of the caller is still on the call stack (C31_return_in_loop_violated).',
'C32':'Values, overflow, termination and skipping proved for every loop whose body leaves the loop variable alone; refuted: leaving a loop by GOTO leaks call stack entries, NEXT with another variable, and NEXT with the variable of an outer loop while an inner one is open.',
'C33':'Proved for label lists; refuted for a string variable in the list, whose storage is taken for the label (C33_variable_violated).',
'C34':'Proved in full.',
'C35':'Per line for all token lists (C35_line_partial), and for whole programs from the source text: every program compiles to well-formed instructions with labels at instructions (C35_program); refuted for names and DATA texts beyond the 8-bit length field (C35_long_name_violated, C35_long_data_violated).',
'C36':'Proved for all expressions within the compiler stack; refuted: minus after a hexadecimal constant or a bracket, and nesting deeper than the stack.',
'C48':'The rule each line follows is proved in full (C48_true, C48_false_else, C48_false_end, C48_else), and for IFs not sharing a line with another IF it is the documented one; refuted for two IFs on a line (an ELSE belongs to both) and for IF ... THEN RESTORE @L.',
'C50':'Accepted iff matching proved; refuted: an omitted variable argument list is accepted, and argument lists longer than the buffer or empty read outside it.',
'C60':'Proved for the literals the compiler checks; refuted: 524288 to 999999 pass in some forms (C60_overflow_violated).',
'C61':'Proved for states in which no array error was recorded; refuted: once recorded, the error is reported by every later DIM (C61_later_violated).',
'C62':'Proved for every program satisfying Compiled (what the compiler emits).',
'C37':'Proved for all programs, positions and READ lists with enough items; refuted: reading past the last item inside one READ is not reported, numbers of more than 16 characters are split, quoted numbers with leading blanks are 0.',
'C20':'For every history without an Out of memory error: variables hold the right strings, a handed out buffer is unreferenced, counts are at least the references; exact counts and never running out proved for histories without errors, READ of strings, INPUT over wide strings and unused results; refuted for those and for Out of memory itself, for every pool size.',
'C46':'Exchange, frame and involution proved for strings (pool) and for cells of memory; refuted for system variables where pointers have 8 bytes.',
'C38':'Proved for the NDS address map (arm) and, on PC, for byte access, MEMCOPY and MEMFILL; refuted on PC: PEEK/POKE at the last addresses of a region touch bytes outside it, conversion of the lowest numbers overflows, adjacent MEMCOPY ranges are refused.',
'C64':'Proved in full.',
    'C39': 'Proved in full: every digit string is stored as the right bytes of the right character, nothing else changes, reading back gives the digits, invalid numbers and lengths are refused.',
    'C40': 'Proved for 8-bit strings (5/6/5-bit reduction, stability of COLREAD then COLSET); refuted for 16-bit strings (C40_wide_violated).',
    'C41': 'Name grammar, resolution, distinctness and refusal proved for LOAD, SAVE, APPEND. Refuted: names without a bank resolve to the upper screen while the redraw mark goes to the current page (C41_no_bank_violated); CHRINIT, CHRREAD, CHRSET, GPUTCHR do not verify types (C41_unchecked_violated).',
    'C45': 'Proved for all resources but programs; SAVE of a program follows a wild pointer (C45_program_violated). Compressed (SBCC) files are not part of this model.',
    'C65': 'Proved for SAVE, LOAD, APPEND; refuted for EXEC (C65_exec_violated).',
    'C66': 'Missing files proved harmless; refuted for wrong types, truncated programs and MEM files with a wrong length field.',
    'C67': 'Proved for both file formats, all masks; the size field is not checked, so longer texts overflow (C67_size_violated).',
    'C68': 'Proved in full.',
    'C69': 'Proved in full.',
    'C70': 'Proved for every admissible history of DIM and element accesses.',
    'C63': 'Exactly the writable system variables hand out pointers, constants never change (proved); refuted: the compiler accepts an assignment to every numeric system variable and executing it writes through the value as an address (C63_accepted_violated, C63_store_violated).',
    'C71': 'Effect of every line described exactly (C71_effect); ranges proved for lines that do not assign an invalid ICONPMAX or ICONPMAX alone; refuted otherwise and for reading back TABSTEP (C71_violated).',
    'C72': 'The two counters determine the time; refuted: MAINCNTL is negative in every second half of its period.',
    'C73': 'Proved in full (for the defect-free DIM requests of C06).',
    'C74': 'Proved in full.',
    'C75': 'Proved in full.',
    'C76': 'Proved in full, for the loop; the sleeping between two checks is not modelled.',
    'C77': 'Proved for every line whose words are not one of the few names that continue a keyword of eight letters into the next table entry (C77_long_name_violated) and with at most 99 words (C77_long_line_violated: the token array overflows).',
    'C78': 'Proved for all texts (termination, progress) and for all programs of lines of at most 99 characters that do not run on (staying inside).',
    'C79': 'Proved for all programs (compiled without variable ids) whose lines do not end with &H, @ or LABEL; refuted for those and for a last line without its end (C79_lines_run_on_violated).',
    'C80': 'Proved for CHRSET of a resource with a bank number and every COLSET; refuted: COLREAD reports 255 for components shown as 248 or 252 (C80_white_violated).',
    'C81': 'Proved for offsets that are not negative or are multiples of 8 dots; refuted for others (one tile off) and for BGCLIP, which the PC display ignores.',
    'C82': 'Proved for both screens at every pixel given the layers of the sprites (C83), for the offsets of C81.',
    'C83': 'Proved for sprites without rotation, at any scale (0 to 200%), in front order of the PC version; rotated sprites are an arbitrary layer.',
    'C84': 'Proved for histories of CHRSET, COLSET, LOAD, CHRINIT, COLINIT and frames with bank numbers in the names; refuted for POKE (C84_poke_violated) and for names without bank on page 1 (C84_no_bank_violated).',
    'C85': 'Proved for all programs of the statements listed, in every layout; the code must fit in the program buffer (524288 bytes); a loop that does not run at all goes on after its NEXT, as the text says (no meaning if FOR or NEXT within an IF are on the way, or if the search leaves a branch of an IF); NEXT that goes on with another loop than the last one begun has no meaning (C32_inner_violated), but may end it; strings, string variables, functions of up to three arguments and read-only system variables are included, and DATA, READ and RESTORE (a READ that runs out of items after its first variable has no meaning, see C37_overrun_violated); DIM (of one or several arrays) and arrays of one or two dimensions, as elements in expressions and as targets of assignments and of READ, are included (used with as many subscripts as they have dimensions, after their DIM, within the room that the theorem has as a parameter); RND (it changes the generator) and arrays as targets of FOR are not part of this source language. Exhaustion of the string pool is not described.',
    'C86': 'Proved in full for the programs of C85.',
    'C87': 'Refuted: PRINT before ELSE (C87_print_else_violated, C87_print_on_violated), DIM before ELSE (C87_dim_else_violated), and RESTORE as the first statement after THEN or ELSE (C87_then_restore_violated). C85 covers all other combinations.',
    'C51': 'Proved for FLOOR, ABS, SGN, RND, RAD for all arguments and DEG for arguments whose result fits; DEG is refuted beyond (C51_deg_violated).',
    'C88': 'Proved for every variable, array element and whole array token; DIM is always compiled by name.',
    'C89': 'Proved for arguments in the documented ranges and out-of-range sprite numbers; refuted: SPREAD character and scale, SPCHK after SPSET, SPHOME out of range.',
    'C90': 'Proved for 29 of the 33 names; SPHITX, SPHITY, SPHITT and ERL are refuted (C90_violated).',
    'C91': 'Proved for all values, bodies of commands and numbers of rounds (C91_loop), and for a first value past the limit with any body without loops (C91_none); other bodies (nested loops, subroutines, IF) are covered by C85.',
    'C92': 'Proved for empty rows; refuted: BACKSPACE in a full line in the last row (C92_bottom_violated), the INSERT key (C92_insert_violated), a character together with L or R (C92_lost_violated).',
    'C93': 'Proved for screens with nothing from the cursor on and prompts that end inside a row; refuted: old text in the row (C93_old_text_violated), the last cell of the screen (C93_corner_violated), BREAK in a full line (C93_break_violated).',
    'C94': 'Proved for lines of up to 31 characters whose numeric fields are in range with at most six decimals, after any number of refused lines; the kinds of the values are proved for every input (C94_kinds); refuted: 32 digits, strings of 32 characters, spaces.',
 "C95": "Proved for all sequences of touches that each stay on one key; violated: sliding from a key to a place without one reads out of bounds, hidden page buttons work.",
 "C96": "PNLSTR, KEY, ICONSET/ICONCLR histories, ICONCHK and the start are proved in full; partial because ICONSET accepts icon 64.",
 "C97": "Selection is proved in full; the picture fits except between OFF and PNL and after INPUT (violated). The drawing of the picture files is not modelled.",
 "C98": "SIN, COS, ATAN, LOG in full; SQR, TAN, EXP, POW inside domain and range; violated: results outside the range and arguments outside the domain are converted (undefined) instead of reported, POW has single precision. Accuracy of the C library is a hypothesis.",
 "C99": "For every text: code at most three times as long as the text, table of lines large enough; @-labels counted. Violated: a program of 500000 characters overflows the code memory; the launcher's table of lines is empty; LABEL lines are not counted.",
 "C100": "Every history of frames. Violated: TCHTIME after 524288 frames, a mouse released outside the lower screen stays pressed, division by zero in a window of one line.",
 "C101": "From every state with at most 254 subroutines or loops under way. Violated when a command fails or 255 are under way: the variables are lost.",
 "C102": "All histories without SELECT. Violated with SELECT at the prompt (line executed again, buffer overrun); EDIT mode unreachable.",
 "C103": "For requests at the listed places. Violated: requests at the other places are lost, the system hangs.",
 "C105": "For the listed commands and for arguments where they are correct (not: GBOX and GFILL with corners left of or above the screen, GBOX in XOR mode, GLINE in other directions than horizontal, vertical and diagonal, COLOR outside 0-15; C25-C28 give the defects). From tokens in text form to dots and cells. Strings are their characters; the string pool, its exhaustion and wide strings are not part of this theorem (C20-C22).",
 "C106": "Proved for all histories of valid requests. Missing: requests that the interpreter does not check (refuted in C04-C06). Refuted: CLEAR inside a FOR loop leaves the loop working on a place that another variable gets (C106_loop_violated).",
 "C107": "Proved for files that are not compressed. Missing: the redraw flag for names without a bank (refuted, C41_no_bank_violated). Refuted: COLINIT with one colour uses a stale stack entry as the number of the colour (C107_color_violated).",
 "C108": "Proved for all histories whose requests fit. Refuted: a request beyond the end of the block is not refused (C108_exhausted_violated); tables can be misaligned (C108_alignment_violated). Not modelled: the platform's malloc that provides the block (assumed to succeed).",
 "C109": "Proved in normal drawing mode for all centres and radii from 0, assuming a C library accurate to 40 binary digits and correctly rounded double arithmetic without fused operations. Refuted: XOR mode (joints drawn twice), the form with angles. Negative radii: only that -16 and below draw nothing.",
 "C110": "Proved for directories whose entries have a dot and fewer than 128 characters before it. Refuted: filter, names, type argument. That argcount is 0 when a command runs is read off the compiler (tokens.c) and runner.c:551, not proved.",
}
