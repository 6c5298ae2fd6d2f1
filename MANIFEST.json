{
 "claims": [
  {
   "property": "C01",
   "status": "partial",
   "theorems": [
    "Bdlib.Rca.c01_isolation_partial",
    "Bdlib.Rca.c01_history_partial",
    "Bdlib.Rca.c01_refuted_reserve"
   ],
   "note": "Holds for every in-contract history; fails for reserve() on shared storage (c01_refuted_reserve)."
  },
  {
   "property": "C02",
   "status": "proved",
   "theorems": [
    "Bdlib.Rca.c02_rcount",
    "Bdlib.Rca.c02_isShared",
    "Bdlib.Rca.c02_storage_iff_owner",
    "Bdlib.Rca.c02_no_leak",
    "Bdlib.Rca.c02_released_unreachable"
   ],
   "note": ""
  },
  {
   "property": "C03",
   "status": "partial",
   "theorems": [
    "Bdlib.Rca.c03_defined_partial",
    "Bdlib.Rca.c03_window_inside",
    "Bdlib.Rca.c03_refuted_cstr",
    "Bdlib.Rca.c17_refuted_end",
    "Bdlib.Rca.c17_refuted_list"
   ],
   "note": "c_str() on a String made by an exact-size constructor reads out of bounds."
  },
  {
   "property": "C04",
   "status": "partial",
   "theorems": [
    "Bdlib.Rca.c04_hash_partial",
    "Bdlib.Rca.c04_equal_partial",
    "Bdlib.Rca.c04_refuted_front",
    "Bdlib.Rca.c04_front_stale"
   ],
   "note": "Writing through front()/back()/read() leaves a stale cached hash."
  },
  {
   "property": "C05",
   "status": "proved",
   "theorems": [
    "Bdlib.Rca.c05_append_item",
    "Bdlib.Rca.c05_append_array",
    "Bdlib.Rca.c05_append_all",
    "Bdlib.Rca.c05_append_cstr",
    "Bdlib.Rca.c05_append_move",
    "Bdlib.Rca.c05_append_move_empty"
   ],
   "note": ""
  },
  {
   "property": "C06",
   "status": "partial",
   "theorems": [
    "Bdlib.Rca.c06_insert_item",
    "Bdlib.Rca.c06_insert_array_n_partial",
    "Bdlib.Rca.c06_insert_array_partial",
    "Bdlib.Rca.c06_insert_move_partial",
    "Bdlib.Rca.c06_insert_move_n_partial",
    "Bdlib.Rca.c06_insert_range",
    "Bdlib.Rca.c06_insert_cstr",
    "Bdlib.Rca.c06_refuted_shortcut",
    "Bdlib.Rca.c06_refuted_self",
    "Bdlib.Rca.c06_insert_longer",
    "Bdlib.Rca.c06_insert_self"
   ],
   "note": "insert(0, longer array) replaces the receiver; inserting an array into its own middle is undefined."
  },
  {
   "property": "C07",
   "status": "partial",
   "theorems": [
    "Bdlib.Rca.c07_replace_array_partial",
    "Bdlib.Rca.c07_replace_zero",
    "Bdlib.Rca.c07_replace_all_partial",
    "Bdlib.Rca.c07_replace_move_partial",
    "Bdlib.Rca.c07_replace_cstr",
    "Bdlib.Rca.c07_replace_item_partial",
    "Bdlib.Rca.c07_write_item",
    "Bdlib.Rca.c07_slice_assign_partial",
    "Bdlib.Rca.c07_refuted_item",
    "Bdlib.Rca.c07_refuted_item_silent",
    "Bdlib.Rca.c07_replace_self",
    "Bdlib.Rca.c07_replace_item_end"
   ],
   "note": "replace(length(), item) passes the position check and writes behind the elements."
  },
  {
   "property": "C08",
   "status": "partial",
   "theorems": [
    "Bdlib.Rca.c08_slice_partial",
    "Bdlib.Rca.c08_slice_exact",
    "Bdlib.Rca.c08_substring_partial",
    "Bdlib.Rca.sliceSpec_getElem",
    "Bdlib.Rca.c08_never_longer_partial",
    "Bdlib.Rca.c08_refuted_negative",
    "Bdlib.Rca.c08_refuted_long",
    "Bdlib.Rca.c08_refuted_overflow"
   ],
   "note": "A negative length reaching before the start underflows; int casts limit the length to 2^31."
  },
  {
   "property": "C09",
   "status": "partial",
   "theorems": [
    "Bdlib.Rca.c09_resize_fill_partial",
    "Bdlib.Rca.c09_resize_partial",
    "Bdlib.Rca.c09_length",
    "Bdlib.Rca.c09_shrink",
    "Bdlib.Rca.c09_refuted_npos",
    "Bdlib.Rca.c09_npos_shared",
    "Bdlib.Rca.c09_npos_own"
   ],
   "note": "Holds except String::resize(npos), where the size computation wraps to 0."
  },
  {
   "property": "C10",
   "status": "partial",
   "theorems": [
    "Bdlib.Rca.c10_clear",
    "Bdlib.Rca.c10_string_drop_front",
    "Bdlib.Rca.c10_string_drop_back",
    "Bdlib.Rca.c10_pop_back_partial",
    "Bdlib.Rca.c10_array_drop_front_partial",
    "Bdlib.Rca.c10_array_drop_back_partial",
    "Bdlib.Rca.c10_refuted_empty",
    "Bdlib.Rca.c10_refuted_negative",
    "Bdlib.Rca.c10_pop_back_empty",
    "Bdlib.Rca.c10_array_drop_negative",
    "Bdlib.Rca.c10_array_drop_long"
   ],
   "note": "Dropping from an empty object underflows; Array limited to 2^31 elements and non-negative amounts."
  },
  {
   "property": "C11",
   "status": "proved",
   "theorems": [
    "Bdlib.Rca.c11_throws",
    "Bdlib.Rca.c11_only_then",
    "Bdlib.Rca.c11_at"
   ],
   "note": "find(..., pos) is covered in C20/C21."
  },
  {
   "property": "C12",
   "status": "partial",
   "theorems": [
    "Bdlib.Rca.c12_reserve_partial",
    "Bdlib.Rca.c12_capacity_monotone",
    "Bdlib.Rca.c12_refuted_shared",
    "Bdlib.Rca.c12_refuted_nul",
    "Bdlib.Rca.c12_refuted_npos",
    "Bdlib.Rca.c12_shared_exact_partial",
    "Bdlib.Rca.c12_copies_partial",
    "Bdlib.Rca.c12_refuted_nul_general",
    "Bdlib.Rca.c12_refuted_npos_general"
   ],
   "note": "Public reserve() on shared storage writes into (or replaces) the buffer other objects still read; String::reserve writes NUL over the last element of an exact-size buffer."
  },
  {
   "property": "C13",
   "status": "partial",
   "theorems": [
    "Bdlib.Rca.c13_bad_alloc_partial",
    "Bdlib.Rca.c13_refuted_shared",
    "Bdlib.Rca.c13_refuted_assign",
    "Bdlib.Rca.c13_shared_lost",
    "Bdlib.Rca.c13_assign_lost"
   ],
   "note": "Copy-on-write gives up the shared storage before the allocation that may throw, leaving the object empty."
  },
  {
   "property": "C14",
   "status": "partial",
   "theorems": [
    "Bdlib.Rca.c14_move_ctor",
    "Bdlib.Rca.c14_move_assign",
    "Bdlib.Rca.c14_self_move",
    "Bdlib.Rca.c14_source_reusable",
    "Bdlib.Rca.c14_source_empty_partial",
    "Bdlib.Rca.c14_stale",
    "Bdlib.Rca.c14_refuted_stale"
   ],
   "note": "Outside test builds a moved-from object keeps its old length and hash."
  },
  {
   "property": "C15",
   "status": "proved",
   "theorems": [
    "Bdlib.Rca.c15_copy_ctor",
    "Bdlib.Rca.c15_copy_assign",
    "Bdlib.Rca.c15_substring",
    "Bdlib.Rca.c15_self_assign"
   ],
   "note": ""
  },
  {
   "property": "C16",
   "status": "partial",
   "theorems": [
    "Bdlib.Rca.c16_pinned",
    "Bdlib.Rca.c16_element_of_other",
    "Bdlib.Rca.c16_own_shared",
    "Bdlib.Rca.c16_own_partial",
    "Bdlib.Rca.c16_chars_of_other",
    "Bdlib.Rca.c16_refuted_dangling",
    "Bdlib.Rca.c16_refuted_shifted",
    "Bdlib.Rca.c16_refuted_cstr",
    "Bdlib.Rca.c16_own_behind",
    "Bdlib.Rca.c16_own_grown",
    "Bdlib.Rca.c16_replace_chars_of_other",
    "Bdlib.Rca.c16_own_chars",
    "Bdlib.Rca.c16_own_replace_chars",
    "Bdlib.Rca.c16_own_chars_grown",
    "Bdlib.Rca.c16_write",
    "Bdlib.Rca.c16_replace",
    "Bdlib.Rca.c16_refuted_write"
   ],
   "note": "Inserting a reference to an own element is wrong when the call reallocates or shifts the element: the argument is read after the move. write() and replace() of one element are right (c16_write, c16_replace) except for Strings without room for a NUL (c16_refuted_write)."
  },
  {
   "property": "C17",
   "status": "partial",
   "theorems": [
    "Bdlib.Rca.c17_cstr_partial",
    "Bdlib.Rca.c17_refuted_exact",
    "Bdlib.Rca.c17_refuted_end",
    "Bdlib.Rca.c17_list_exact",
    "Bdlib.Rca.c17_refuted_list"
   ],
   "note": "Strings made by the inherited exact-size constructors have no byte behind the contents; c_str() reads it."
  },
  {
   "property": "C18",
   "status": "proved",
   "theorems": [
    "Bdlib.Rca.c18_deque"
   ],
   "note": ""
  },
  {
   "property": "C19",
   "status": "partial",
   "theorems": [
    "Bdlib.Rca.c19_begin_partial",
    "Bdlib.Rca.c19_refuted_front",
    "Bdlib.Rca.c19_front_exact"
   ],
   "note": "front(), back() and non-const read() return writable references without detaching."
  },
  {
   "property": "C20",
   "status": "proved",
   "theorems": [
    "Bdlib.Str.c20_find",
    "Bdlib.Str.c20_rfind",
    "Bdlib.Str.c20_find_from",
    "Bdlib.Str.c20_find_range"
   ],
   "note": "find(x, pos) returns the distance from pos; the theorem says so."
  },
  {
   "property": "C21",
   "status": "partial",
   "theorems": [
    "Bdlib.Str.c21_find",
    "Bdlib.Str.c21_same",
    "Bdlib.Str.c21_find_from_partial",
    "Bdlib.Str.c21_find_range",
    "Bdlib.Str.c21_find_from_fallback",
    "Bdlib.Str.c21_find_from_empty",
    "Bdlib.Str.c21_fallback_wrong",
    "Bdlib.Str.c21_refuted_from"
   ],
   "note": "find(str, pos) without memmem misses matches; with memmem the result is relative to pos."
  },
  {
   "property": "C22",
   "status": "proved",
   "theorems": [
    "Bdlib.Str.c22_rfind",
    "Bdlib.Str.c22_empty"
   ],
   "note": ""
  },
  {
   "property": "C23",
   "status": "partial",
   "theorems": [
    "Bdlib.Str.c23_ifind",
    "Bdlib.Str.c23_rifind_partial",
    "Bdlib.Str.c23_rifind_exact",
    "Bdlib.Str.c23_lpos_ignored",
    "Bdlib.Str.c23_refuted_lpos"
   ],
   "note": "rifind ignores its lower bound."
  },
  {
   "property": "C24",
   "status": "partial",
   "theorems": [
    "Bdlib.Str.c24_compare_partial",
    "Bdlib.Str.c24_compare_exact",
    "Bdlib.Str.c24_eq",
    "Bdlib.Str.c24_lt_partial",
    "Bdlib.Str.c24_ge_partial",
    "Bdlib.Str.c24_gt_partial",
    "Bdlib.Str.c24_le_partial",
    "Bdlib.Str.c24_total",
    "Bdlib.Str.c24_trans",
    "Bdlib.Str.c24_lex",
    "Bdlib.Str.c24_refuted_long"
   ],
   "note": "The length difference is truncated to int."
  },
  {
   "property": "C25",
   "status": "partial",
   "theorems": [
    "Bdlib.Str.c25_compare_partial",
    "Bdlib.Str.c25_compare_exact",
    "Bdlib.Str.c25_compare_short",
    "Bdlib.Str.c25_zero",
    "Bdlib.Str.c25_refuted_long"
   ],
   "note": "The length difference is truncated to int."
  },
  {
   "property": "C26",
   "status": "partial",
   "theorems": [
    "Bdlib.Str.c26_compare_partial",
    "Bdlib.Str.c26_overread",
    "Bdlib.Str.c26_no_nul",
    "Bdlib.Str.c26_eq_partial",
    "Bdlib.Str.c26_order_partial",
    "Bdlib.Str.c26_le_partial",
    "Bdlib.Str.c26_compare_n_partial",
    "Bdlib.Str.c26_overread_n",
    "Bdlib.Str.c26_refuted_nul"
   ],
   "note": "A String with an embedded NUL makes compare(const char*) read past the end of the C string."
  },
  {
   "property": "C27",
   "status": "proved",
   "theorems": [
    "Bdlib.Str.c27_equals",
    "Bdlib.Str.c27_eq",
    "Bdlib.Str.c27_eq_identical"
   ],
   "note": ""
  },
  {
   "property": "C28",
   "status": "partial",
   "theorems": [
    "Bdlib.Str.c28_split_partial",
    "Bdlib.Str.c28_split_limit_partial",
    "Bdlib.Str.c28_split_at_most_partial",
    "Bdlib.Str.c28_split_at_most_unique",
    "Bdlib.Str.c28_split_one",
    "Bdlib.Str.c28_split_empty",
    "Bdlib.Str.c28_fallback",
    "Bdlib.Str.c28_fallback_once",
    "Bdlib.Str.c28_refuted_limit",
    "Bdlib.Str.c28_refuted_memmem",
    "Bdlib.Str.c28_refuted_lost",
    "Bdlib.Str.c28_refuted_empty",
    "Bdlib.Str.c28_refuted_long"
   ],
   "note": "Limit 0, spurious empty last piece with a limit, no memmem, 2^31 characters. Without memmem, c28_fallback says what still holds (the first piece is right, nothing is doubled, as much text as a delimiter disappears at each cut), and c28_fallback_once that one delimiter is handled correctly; text is lost otherwise (c28_refuted_lost)."
  },
  {
   "property": "C29",
   "status": "partial",
   "theorems": [
    "Bdlib.Str.c29_words_partial",
    "Bdlib.Str.c29_words_unique",
    "Bdlib.Str.c29_words_nonempty",
    "Bdlib.Str.c29_words_at_most_partial",
    "Bdlib.Str.c29_words_at_most_unique",
    "Bdlib.Str.c29_fallback",
    "Bdlib.Str.c29_fallback_few",
    "Bdlib.Str.c29_refuted_memmem",
    "Bdlib.Str.c29_refuted_tail",
    "Bdlib.Str.c29_refuted_lost",
    "Bdlib.Str.c29_refuted_long"
   ],
   "note": "Without memmem the pieces are wrong (c29_fallback says what they are then, c29_fallback_few when they are right); from 2^31 characters on all pieces are empty (c29_refuted_long, for any delimiter)."
  },
  {
   "property": "C30",
   "status": "partial",
   "theorems": [
    "Bdlib.Str.c30_sub_partial",
    "Bdlib.Str.c30_unique",
    "Bdlib.Str.c30_identity",
    "Bdlib.Str.c30_sub_exact",
    "Bdlib.Str.c30_empty_limit",
    "Bdlib.Str.c30_refuted_empty",
    "Bdlib.Str.c30_refuted_zero",
    "Bdlib.Str.c30_refuted_long"
   ],
   "note": "Empty search text does not terminate; limit 0 replaces everything; from 2^31 characters on what comes before the occurrence is lost."
  },
  {
   "property": "C31",
   "status": "partial",
   "theorems": [
    "Bdlib.Str.c31_subst_partial",
    "Bdlib.Str.simul_unique",
    "Bdlib.Str.c31_refuted_empty",
    "Bdlib.Str.c31_refuted_chain",
    "Bdlib.Str.c31_refuted_long"
   ],
   "note": "An empty value may bring the halves of another key together; then the order matters. From 2^31 characters on text is lost."
  },
  {
   "property": "C32",
   "status": "partial",
   "theorems": [
    "Bdlib.Str.c32_last",
    "Bdlib.Str.c32_newsplit_partial",
    "Bdlib.Str.c32_tokens_partial",
    "Bdlib.Str.c32_words_partial",
    "Bdlib.Str.c32_refuted_long"
   ],
   "note": "Fewer than 2^31 characters (slice)."
  },
  {
   "property": "C33",
   "status": "proved",
   "theorems": [
    "Bdlib.Str.c33_trim",
    "Bdlib.Str.c33_trim_unique",
    "Bdlib.Str.c33_trim_idempotent",
    "Bdlib.Str.c33_chomp_crlf",
    "Bdlib.Str.c33_chomp_lf",
    "Bdlib.Str.c33_chomp_cr",
    "Bdlib.Str.c33_chomp_none"
   ],
   "note": ""
  },
  {
   "property": "C34",
   "status": "proved",
   "theorems": [
    "Bdlib.Str.c34_mul",
    "Bdlib.Str.c34_zero",
    "Bdlib.Str.c34_empty",
    "Bdlib.Str.c34_negative"
   ],
   "note": "For results that fit in memory."
  },
  {
   "property": "C35",
   "status": "partial",
   "theorems": [
    "Bdlib.Str.c35_join_partial",
    "Bdlib.Str.c35_join_split_partial",
    "Bdlib.Str.c35_refuted_empty"
   ],
   "note": "All elements empty, empty delimiter, unquoted: the size wraps to 2^64 - 1 and join throws bad_alloc."
  },
  {
   "property": "C36",
   "status": "partial",
   "theorems": [
    "Bdlib.Str.c36_printf_partial",
    "Bdlib.Str.c36_refuted_4096",
    "Bdlib.Str.c36_refuted_long"
   ],
   "note": "Texts of 4096 characters or more are wrong or read past the buffer."
  },
  {
   "property": "C37",
   "status": "proved",
   "theorems": [
    "Bdlib.B64.c37_encode",
    "Bdlib.B64.c37_encode_charset",
    "Bdlib.B64.c37_buf",
    "Bdlib.B64.c37_alphabet",
    "Bdlib.B64.c37_length",
    "Bdlib.B64.c37_characters"
   ],
   "note": ""
  },
  {
   "property": "C38",
   "status": "proved",
   "theorems": [
    "Bdlib.B64.c38_round_trip",
    "Bdlib.B64.c38_injective"
   ],
   "note": ""
  },
  {
   "property": "C39",
   "status": "partial",
   "theorems": [
    "Bdlib.B64.c39_decode_partial",
    "Bdlib.B64.c39_multiple_of_four",
    "Bdlib.B64.c39_one_missing",
    "Bdlib.B64.c39_refuted_short",
    "Bdlib.B64.c39_exact",
    "Bdlib.B64.c39_refuted_two"
   ],
   "note": "Input whose length is not a multiple of four is read past its end."
  },
  {
   "property": "C40",
   "status": "partial",
   "theorems": [
    "Bdlib.B64.c40_round_trip_partial",
    "Bdlib.B64.c40_refuted_high",
    "Bdlib.B64.c40_url"
   ],
   "note": "Charset characters of 128 and more index before the table."
  },
  {
   "property": "C41",
   "status": "proved",
   "theorems": [
    "Bdlib.Cstr.c41_strlcpy",
    "Bdlib.Cstr.c41_zero",
    "Bdlib.Cstr.c41_bounds"
   ],
   "note": ""
  },
  {
   "property": "C42",
   "status": "partial",
   "theorems": [
    "Bdlib.Cstr.c42_strlcat_partial",
    "Bdlib.Cstr.c42_bounds_partial",
    "Bdlib.Cstr.c42_unterminated_partial",
    "Bdlib.Cstr.c42_overread",
    "Bdlib.Cstr.c42_refuted_overread"
   ],
   "note": "With no NUL in dst[0..siz) the code also reads dst[siz]."
  },
  {
   "property": "C43",
   "status": "partial",
   "theorems": [
    "Bdlib.Cstr.c43_strdup",
    "Bdlib.Cstr.c43_strldup",
    "Bdlib.Cstr.c43_redup_partial",
    "Bdlib.Cstr.c43_redup_null",
    "Bdlib.Cstr.c43_redup_null_null",
    "Bdlib.Cstr.c43_refuted_alias"
   ],
   "note": "str_redup with a new string inside the old one reads released memory."
  },
  {
   "property": "C44",
   "status": "partial",
   "theorems": [
    "Bdlib.Stm.c44_history_partial",
    "Bdlib.Stm.c44_puts",
    "Bdlib.Stm.c44_read_partial",
    "Bdlib.Stm.c44_read_back_partial",
    "Bdlib.Stm.c44_appends",
    "Bdlib.Stm.c44_refuted_gap"
   ],
   "note": "Positions behind the contents, which seek can produce, make puts throw; contents limited to 2^31 - 1 bytes."
  },
  {
   "property": "C45",
   "status": "partial",
   "theorems": [
    "Bdlib.Stm.c45_getlines_partial",
    "Bdlib.Stm.c45_lines_join",
    "Bdlib.Stm.c45_lines_shape",
    "Bdlib.Stm.c45_getline_max_partial",
    "Bdlib.Stm.c45_max_exact",
    "Bdlib.Stm.c45_refuted_max"
   ],
   "note": "getline(max) may return max + 1 bytes."
  },
  {
   "property": "C46",
   "status": "partial",
   "theorems": [
    "Bdlib.Stm.c46_range",
    "Bdlib.Stm.c46_clamp",
    "Bdlib.Stm.c46_seek_partial",
    "Bdlib.Stm.c46_end_partial",
    "Bdlib.Stm.c46_refuted_end",
    "Bdlib.Stm.c46_refuted_concrete"
   ],
   "note": "seek clamps to the capacity and SEEK_END counts from it; later calls throw or read out of bounds."
  },
  {
   "property": "C47",
   "status": "partial",
   "theorems": [
    "Bdlib.Stm.c47_truncate_partial",
    "Bdlib.Stm.c47_peek_partial",
    "Bdlib.Stm.c47_clear",
    "Bdlib.Stm.c47_truncate_then_puts_partial",
    "Bdlib.Stm.c47_refuted_long"
   ],
   "note": "Fewer than 2^31 bytes."
  },
  {
   "property": "C48",
   "status": "partial",
   "theorems": [
    "Bdlib.Stm.c48_write",
    "Bdlib.Stm.c48_write_ok",
    "Bdlib.Stm.c48_write_fails_mmap",
    "Bdlib.Stm.c48_write_fails_stdio",
    "Bdlib.Stm.c48_write_left_mmap",
    "Bdlib.Stm.c48_write_left_stdio",
    "Bdlib.Stm.c48_write_fd_unmapped",
    "Bdlib.Stm.c48_load_no_memory",
    "Bdlib.Stm.c48_load_mmap_partial",
    "Bdlib.Stm.c48_load_stdio_partial",
    "Bdlib.Stm.c48_load_fails",
    "Bdlib.Stm.c48_load_fails_mmap",
    "Bdlib.Stm.c48_round_trip_partial",
    "Bdlib.Stm.c48_write_fd_mmap",
    "Bdlib.Stm.c48_write_fd_stdio_partial",
    "Bdlib.Stm.c48_load_stdio_exact",
    "Bdlib.Stm.c48_write_fd_stdio_exact",
    "Bdlib.Stm.c48_load_pipe",
    "Bdlib.Stm.c48_refuted_empty",
    "Bdlib.Stm.c48_refuted_read_error",
    "Bdlib.Stm.c48_refuted_tail"
   ],
   "note": "mmap build cannot load an empty file; stdio build ignores read errors and writeFile(fd) leaves the tail of a longer file."
  },
  {
   "property": "C49",
   "status": "partial",
   "theorems": [
    "Bdlib.Af.c49_crash_partial",
    "Bdlib.Af.c49_before_commit_partial"
   ],
   "note": "Names of up to 4085 bytes (open() is undefined for longer ones) not ending in a slash; directories are resolved by an arbitrary tree (.. and symbolic links to directories); the process does not change its directory meanwhile. If the name itself is a symbolic link this is about the link; for its readers see C95."
  },
  {
   "property": "C50",
   "status": "partial",
   "theorems": [
    "Bdlib.Af.c50_abort_partial",
    "Bdlib.Af.c50_abort_closed",
    "Bdlib.Af.c50_destroy",
    "Bdlib.Af.c50_commit_false_partial",
    "Bdlib.Af.c50_commit_true_partial",
    "Bdlib.Af.c50_commit_succeeds_partial",
    "Bdlib.Af.c50_commit_reports",
    "Bdlib.Af.c50_refuted_chdir"
   ],
   "note": "Names of up to 4085 bytes; the temporary file stays if unlink itself fails. Refuted: after a change of the current directory a relative name is lost."
  },
  {
   "property": "C51",
   "status": "partial",
   "theorems": [
    "Bdlib.Af.c51_same_directory_partial",
    "Bdlib.Af.c51_open",
    "Bdlib.Af.c51_refuted_long",
    "Bdlib.Af.c51_refuted_4096",
    "Bdlib.Af.c51_refuted_longer"
   ],
   "note": "Exactly when open() succeeds, for names whose template has fewer than 4096 characters; with exactly 4096 it always says false, and all longer names make printf read out of bounds."
  },
  {
   "property": "C52",
   "status": "partial",
   "theorems": [
    "Bdlib.Af.c52_no_leak_partial",
    "Bdlib.Af.c52_destroyed",
    "Bdlib.Af.c52_refuted_open_twice",
    "Bdlib.Af.c52_refuted_fsync",
    "Bdlib.Af.c52_refuted_not_open",
    "Bdlib.Af.c52_refuted_reopen",
    "Bdlib.Af.c52_refuted_sync",
    "Bdlib.Af.c52_refuted_foreign"
   ],
   "note": "A second open() leaks; a failing fsync or fchmod leaks the descriptor; commit() without an open file removes a foreign file."
  },
  {
   "property": "C53",
   "status": "proved",
   "theorems": [
    "Bdlib.Hash.c53_map",
    "Bdlib.Hash.c53_size_unique"
   ],
   "note": "std::unordered_map is modelled as buckets with an arbitrary growth policy."
  },
  {
   "property": "C54",
   "status": "partial",
   "theorems": [
    "Bdlib.Hash.c54_lawful_partial",
    "Bdlib.Hash.c54_map_partial",
    "Bdlib.Hash.c54_found_partial",
    "Bdlib.Hash.c54_refuted_front"
   ],
   "note": "Keys written to through front()/back()/read() keep a stale hash and are not found."
  },
  {
   "property": "C55",
   "status": "partial",
   "theorems": [
    "Bdlib.Tcl.c55_to_c_partial",
    "Bdlib.Tcl.c55_not_integer",
    "Bdlib.Tcl.c55_range",
    "Bdlib.Tcl.c55_of_c_partial",
    "Bdlib.Tcl.c55_round_trip",
    "Bdlib.Tcl.c55_round_trip_unsigned_partial",
    "Bdlib.Tcl.c55_refuted_u64",
    "Bdlib.Tcl.c55_refuted_unsigned",
    "Bdlib.Tcl.c55_refuted_wrap"
   ],
   "note": "Unsigned values above the signed maximum of their width come back negative; the conversion to uint64_t always gives 0."
  },
  {
   "property": "C56",
   "status": "partial",
   "theorems": [
    "Bdlib.Tcl.c56_runs",
    "Bdlib.Tcl.c56_unconvertible",
    "Bdlib.Tcl.c56_wrong_partial",
    "Bdlib.Tcl.c56_iff_partial",
    "Bdlib.Tcl.c56_create",
    "Bdlib.Tcl.c56_refuted_usage",
    "Bdlib.Tcl.c56_refuted_quote",
    "Bdlib.Tcl.c56_indices",
    "Bdlib.Tcl.c56_order_runs",
    "Bdlib.Tcl.c56_order_unconvertible",
    "Bdlib.Tcl.c56_order_wrong"
   ],
   "note": "In whatever order the compiler makes the arguments. Usage texts and command names of fewer than 4082 bytes together; with exactly 4082 the error text loses its closing quote, and longer ones make every wrong call undefined."
  },
  {
   "property": "C57",
   "status": "partial",
   "theorems": [
    "Bdlib.Tcl.c57_worlds_partial",
    "Bdlib.Tcl.c57_history_partial",
    "Bdlib.Tcl.c57_refuted_destroy_running",
    "Bdlib.Tcl.c57_refuted_second_create",
    "Bdlib.Tcl.c57_refuted_foreign_delete",
    "Bdlib.Tcl.c57_refuted_destroy",
    "Bdlib.Tcl.c57_refuted_qualified",
    "Bdlib.Tcl.c57_refuted_rename",
    "Bdlib.Tcl.c57_refuted_recreate",
    "Bdlib.Tcl.c57_refuted_delete_running",
    "Bdlib.Tcl.c57_refuted_second",
    "Bdlib.Tcl.c57_refuted_foreign",
    "Bdlib.Tcl.c57_refuted_other",
    "Bdlib.Tcl.c57_refuted_spelling",
    "Bdlib.Tcl.c57_refuted_renamed",
    "Bdlib.Tcl.c57_refuted_renamed_null",
    "Bdlib.Tcl.c57_refuted_anew",
    "Bdlib.Tcl.c57_refuted_deleted",
    "Bdlib.Tcl.c57_refuted_destroyed",
    "Bdlib.Tcl.c57_shared",
    "Bdlib.Tcl.c57_undefined"
   ],
   "note": "Interpreters come and go, scripts drop commands. Excluded, each refuted after every covered history: a name that is a command of two interpreters at once; destroying an interpreter while another has commands or a command runs; calling a command by another spelling or after rename; making anew or deleting a running command. For all histories without any condition, renaming included: calls run what one table for all interpreters says, and functions are destroyed exactly when neither registered nor running (c57_shared); nothing is undefined but calling an unregistered name and commands of interpreters that are gone (c57_undefined)."
  },
  {
   "property": "C61",
   "status": "partial",
   "theorems": [
    "Bdlib.Tcl.c61_iff",
    "Bdlib.Tcl.c61_load_partial",
    "Bdlib.Tcl.c61_refuse",
    "Bdlib.Tcl.c61_refuted_nul",
    "Bdlib.Tcl.c61_refuted_nul_all"
   ],
   "note": "The decision is proved for all names; for a name with a NUL inside another file is evaluated."
  },
  {
   "property": "C62",
   "status": "partial",
   "theorems": [
    "Bdlib.Tcl.c62_call_partial",
    "Bdlib.Tcl.c62_exactly_partial",
    "Bdlib.Tcl.c62_refuted_quote",
    "Bdlib.Tcl.c62_refuted_words",
    "Bdlib.Tcl.c62_refuted_injection",
    "Bdlib.Tcl.c62_refuted_variable",
    "Bdlib.Tcl.c62_refuted_command",
    "Bdlib.Tcl.c62_refuted_nul",
    "Bdlib.Tcl.c62_refuted_long"
   ],
   "note": "Parameters without \", $, [, \\ and NUL, in texts below 4096 bytes."
  },
  {
   "property": "C63",
   "status": "partial",
   "theorems": [
    "Bdlib.Tcl.c63_history_partial",
    "Bdlib.Tcl.c63_refuted_short",
    "Bdlib.Tcl.c63_refuted_short_text",
    "Bdlib.Tcl.c63_refuted_unterminated",
    "Bdlib.Tcl.c63_refuted_nul",
    "Bdlib.Tcl.c63_refuted_relink_var",
    "Bdlib.Tcl.c63_refuted_relink_buf",
    "Bdlib.Tcl.c63_refuted_relink_clears",
    "Bdlib.Tcl.c63_refuted_relink_both",
    "Bdlib.Tcl.c63_refuted_relink_size",
    "Bdlib.Tcl.c63_refuted_relink_freed",
    "Bdlib.Tcl.c83_refuted_element"
   ],
   "note": "One interpreter; names of elements of arrays excluded (c83_refuted_element); names are not linked twice without unlinking (what happens if they are, after every covered history: c63_refuted_relink_clears, _both, _size, _freed); values read have no NUL; texts put into a buffer of size bytes have at least size - 1 characters."
  },
  {
   "property": "C60",
   "status": "partial",
   "theorems": [
    "Bdlib.Ios.c60_token",
    "Bdlib.Ios.c60_last_token",
    "Bdlib.Ios.c60_no_token",
    "Bdlib.Ios.c60_getline",
    "Bdlib.Ios.c60_last_line",
    "Bdlib.Ios.c60_after_end",
    "Bdlib.Ios.c60_bad",
    "Bdlib.Ios.c60_lines_partial",
    "Bdlib.Ios.c60_tokens_partial",
    "Bdlib.Ios.c60_refuted_last_line",
    "Bdlib.Ios.c60_refuted_last_token"
   ],
   "note": "A loop on getline or >> does not yield the last line or token if the input ends right after it, because the fail bit is set."
  },
  {
   "property": "C64",
   "status": "proved",
   "theorems": [
    "Bdlib.Rca.c64_linear"
   ],
   "note": "Bound 12k + 3|v| + 2 for every reachable starting state; growth factor at least 5/4 (code: 1.5)."
  },
  {
   "property": "C59",
   "status": "partial",
   "theorems": [
    "Bdlib.Cleanse.c59_cleanse",
    "Bdlib.Cleanse.c59_cleanse_all",
    "Bdlib.Rca.c59_destroy_partial",
    "Bdlib.Rca.c59_scope_partial",
    "Bdlib.Rca.c59_gentle_partial",
    "Bdlib.Rca.c59_in_place_partial",
    "Bdlib.Rca.c59_refuted_growth",
    "Bdlib.Rca.c59_refuted_assign",
    "Bdlib.Rca.c59_refuted_move",
    "Bdlib.Rca.c59_refuted_cstr",
    "Bdlib.Rca.c59_careful_partial",
    "Bdlib.Rca.c59_assign_refuted",
    "Bdlib.Rca.c59_assign_shared_partial",
    "Bdlib.Rca.c59_growth_refuted",
    "Bdlib.Rca.c59_cstr_refuted",
    "Bdlib.Rca.c59_assign_longer_refuted"
   ],
   "note": "Destruction wipes; copying, moving, slicing, clearing, detaching, in-place changes (of every kind, also resizing and inserting ranges) and assigning a String or C string over a String that is not the last user of its buffer release nothing; a program of only such calls never releases an unwiped buffer (c59_careful_partial). Growth of an unshared buffer (also by assigning a longer list or std::string) and assignment over its last user release the old contents unwiped, from every reachable state (the _refuted theorems)."
  },
  {
   "property": "C58",
   "status": "partial",
   "theorems": [
    "Bdlib.Conc.c58_calm_partial",
    "Bdlib.Conc.c58_released_partial",
    "Bdlib.Conc.c58_plain",
    "Bdlib.Conc.c58_handover",
    "Bdlib.Conc.c58_private",
    "Bdlib.Conc.c58_refuted_handover",
    "Bdlib.Conc.c58_progress_partial",
    "Bdlib.Conc.c58_refuted_freed",
    "Bdlib.Conc.c58_refuted_leak_modify",
    "Bdlib.Conc.c58_refuted_leak_clear",
    "Bdlib.Conc.c58_refuted_leak_destroy",
    "Bdlib.Conc.c58_refuted_isolation",
    "Bdlib.Conc.c58_refuted_wiped",
    "Bdlib.Conc.c58_refuted_unwiped",
    "Bdlib.Conc.c58_refuted_torn",
    "Bdlib.Conc.c58_refuted_leak_always",
    "Bdlib.Conc.c58_refuted_freed_always"
   ],
   "note": "All modifying calls (a modification is any function of the value). The copy of copy-on-write reads the old buffer one element per step. Every interleaving of construction, copies, slices, reads, assignment and destruction; every interleaving of threads that share no storage, also if they hand each other unshared objects by moving them (c58_handover; with a copy left behind it fails: c58_refuted_handover); every interleaving without a clash (Pc.clash). Leaving shared storage while another thread uses it is unsafe in the code: use after free, leaks, lost isolation and a torn copy (a value no object ever had) are exhibited; two threads that both found their shared storage shared always leak it, and a copy always reads released memory if the deletion comes first. The static counter of the wiping loop is left out here: the race on it is C90."
  },
  {
   "property": "C65",
   "status": "partial",
   "theorems": [
    "Bdlib.Rca.c65_plus",
    "Bdlib.Rca.c65_times",
    "Bdlib.Rca.c65_times_negative",
    "Bdlib.Rca.c65_sub_partial",
    "Bdlib.Rca.c65_subst_partial",
    "Bdlib.Rca.c65_join_partial",
    "Bdlib.Rca.c65_chomp",
    "Bdlib.Rca.c65_trim",
    "Bdlib.Rca.c65_newsplit_partial",
    "Bdlib.Rca.c65_newsplit_last_partial",
    "Bdlib.Rca.c65_split_partial",
    "Bdlib.Rca.c65_words_partial",
    "Bdlib.Rca.c65_post_inc",
    "Bdlib.Rca.c65_post_dec",
    "Bdlib.Rca.c65_compare_partial",
    "Bdlib.Rca.c65_eq",
    "Bdlib.Rca.c65_find",
    "Bdlib.Rca.c65_slice_assign",
    "Bdlib.Rca.c65_slice_assign_range",
    "Bdlib.Rca.c65_slice_assign_self",
    "Bdlib.Rca.c65_slice_assign_slice",
    "Bdlib.Rca.c65_slice_assign_move",
    "Bdlib.Rca.c65_element_assign"
   ],
   "note": "The _partial theorems carry the restrictions of the functions on values (C24, C28-C32, C35). A String assigned to an overlapping part of itself is undefined (c65_slice_assign_self)."
  },
  {
   "property": "C66",
   "status": "partial",
   "theorems": [
    "Bdlib.Rca.c66_noexcept",
    "Bdlib.Rca.c66_chomp_trim",
    "Bdlib.Rca.c66_find_compare",
    "Bdlib.Rca.c66_refuted_cstr"
   ],
   "note": "All modelled noexcept functions except c_str() and unary *, which may allocate: they end the program when memory is exhausted."
  },
  {
   "property": "C67",
   "status": "partial",
   "theorems": [
    "Bdlib.Tcl.c67_ok_partial",
    "Bdlib.Tcl.c67_error_partial",
    "Bdlib.Tcl.c67_returns_iff",
    "Bdlib.Tcl.c67_refuted_endless",
    "Bdlib.Tcl.c67_refuted_long"
   ],
   "note": "Scripts shorter than 2^31 bytes; after an error eval calls itself with `set errorInfo` until that succeeds, so it never returns once `set` is gone."
  },
  {
   "property": "C68",
   "status": "partial",
   "theorems": [
    "Bdlib.Tcl.c68_string_partial",
    "Bdlib.Tcl.c68_bool",
    "Bdlib.Tcl.c68_not_bool",
    "Bdlib.Tcl.c68_array_partial",
    "Bdlib.Tcl.c68_table_partial",
    "Bdlib.Tcl.c68_from_text",
    "Bdlib.Tcl.c68_not_list",
    "Bdlib.Tcl.c68_linked_read_partial",
    "Bdlib.Tcl.c68_refuted_linked_write",
    "Bdlib.Tcl.c68_refuted_linked_nul",
    "Bdlib.Tcl.c68_refuted_long"
   ],
   "note": "Texts shorter than 2^31 - 1 bytes. Writing a linked Array<String> dereferences a null pointer."
  },
  {
   "property": "C69",
   "status": "partial",
   "theorems": [
    "Bdlib.Ios.c69_text_partial",
    "Bdlib.Ios.c69_width",
    "Bdlib.Ios.c69_failed",
    "Bdlib.Ios.c69_full",
    "Bdlib.Ios.c69_object",
    "Bdlib.Ios.c69_rvalue_partial",
    "Bdlib.Ios.c69_shared_aborts",
    "Bdlib.Ios.c69_exactly",
    "Bdlib.Ios.c69_refuted_width",
    "Bdlib.Ios.c69_refuted_empty",
    "Bdlib.Ios.c69_refuted_shared"
   ],
   "note": "With a field width only the first character is put into the field; a temporary that shares storage aborts debug builds."
  },
  {
   "property": "C70",
   "status": "partial",
   "theorems": [
    "Bdlib.Rca.c70_post_inc_partial",
    "Bdlib.Rca.c70_post_dec_partial",
    "Bdlib.Rca.c70_post_inc_rvalue",
    "Bdlib.Rca.c70_post_dec_rvalue",
    "Bdlib.Rca.c70_eq",
    "Bdlib.Rca.c70_find",
    "Bdlib.Rca.c65_plus",
    "Bdlib.Rca.c65_slice_assign",
    "Bdlib.Rca.c65_slice_assign_slice",
    "Bdlib.Rca.c65_slice_assign_move",
    "Bdlib.Rca.c65_element_assign",
    "Bdlib.Rca.c70_refuted_post_inc",
    "Bdlib.Rca.c70_refuted_post_dec",
    "Bdlib.Rca.c70_refuted_empty"
   ],
   "note": "Postfix ++/-- return a one-element Array with the removed element instead of the old value, and underflow on an empty Array."
  },
  {
   "property": "C71",
   "status": "partial",
   "theorems": [
    "Bdlib.Rca.c71_copy",
    "Bdlib.Rca.c71_copy_short",
    "Bdlib.Rca.c71_dup",
    "Bdlib.Rca.c71_std",
    "Bdlib.Rca.c71_chomp",
    "Bdlib.Rca.c71_trim",
    "Bdlib.Rca.c71_encode",
    "Bdlib.Rca.c71_decode",
    "Bdlib.Rca.c71_encode_buffer_partial",
    "Bdlib.Rca.c71_decode_buffer_partial",
    "Bdlib.Rca.c71_rfind",
    "Bdlib.Rca.c71_ifind",
    "Bdlib.Rca.c71_rifind_partial",
    "Bdlib.Rca.c71_refuted_malloc",
    "Bdlib.Rca.c71_refuted_leak"
   ],
   "note": "base64Encode and base64Decode leak their malloc buffer when the String cannot be allocated, and write through a null pointer when malloc fails; rifind with an empty argument or a lower bound is wrong (C23)."
  },
  {
   "property": "C72",
   "status": "partial",
   "theorems": [
    "Bdlib.Rca.c72_forward",
    "Bdlib.Rca.c72_backward",
    "Bdlib.Rca.c72_range_for",
    "Bdlib.Rca.c72_insert",
    "Bdlib.Rca.c72_refuted_mixed",
    "Bdlib.Rca.c72_refuted_copy",
    "Bdlib.Rca.c72_refuted_hash"
   ],
   "note": "Iterators do not stay isolated: a loop from cbegin() to end() on a shared non-const object never meets its end (begin()/end() detach); a copy made after begin() is changed by assignments through the iterator; hash() cached between begin() and an assignment is stale. The three refutations hold for every object and state."
  },
  {
   "property": "C73",
   "status": "partial",
   "theorems": [
    "Bdlib.Rca.c73_call",
    "Bdlib.Rca.c73_history",
    "Bdlib.Rca.c73_copies",
    "Bdlib.Rca.c73_refuted_reserve",
    "Bdlib.Rca.c73_refuted_puts",
    "Bdlib.Rca.c73_refuted_read"
   ],
   "note": "Covered: all constructors, copy assignment, destructor, puts, read with and without delimiter, getline with and without a limit, seek from the start and from the position, truncate, clear, peek, tell, length. Contract: seeks do not go behind the contents (C47), streams stay below 2^31 bytes. Not so: the const member reserve() on a stream made of a slice changes the original String; a failed puts on shared storage leaves an empty stream with its old position, whose next puts throws out_of_range; a failed read(n, delim) may lose the bytes it had read."
  },
  {
   "property": "C74",
   "status": "partial",
   "theorems": [
    "Bdlib.Hash.c74_call",
    "Bdlib.Hash.c74_history",
    "Bdlib.Hash.c74_copy_partial",
    "Bdlib.Hash.c74_refuted_insert",
    "Bdlib.Hash.c74_refuted_copy",
    "Bdlib.Hash.c74_refuted_getValue"
   ],
   "note": "Proved for all calls but assignment of a whole table, which may leave the destination empty when it fails (c74_refuted_copy; c74_copy_partial says what it does leave). Refuted for value types whose assignment may throw: insert() may throw with the key already in the table under another value, and repeating it returns false (c74_refuted_insert, for every such type). getValue(), being noexcept, ends the program if copying the value throws (c74_refuted_getValue)."
  },
  {
   "property": "C75",
   "status": "partial",
   "theorems": [
    "Bdlib.Nest.c75_arrays_of_strings_partial",
    "Bdlib.Nest.c75_string_calls",
    "Bdlib.Nest.c75_append",
    "Bdlib.Nest.c75_append_move",
    "Bdlib.Nest.c75_read",
    "Bdlib.Nest.c75_modify",
    "Bdlib.Nest.c75_no_leak",
    "Bdlib.Nest.c75_greet",
    "Bdlib.Nest.c75_leak"
   ],
   "note": "Proved except for the last clause: resize(len, value) and the fill constructor construct new elements over elements that exist already; each such element is one string that is never destroyed, and its storage leaks if it had any (c75_leak: push_back, pop_back, resize(1, s)). c75_arrays_of_strings_partial counts them exactly: when all is destroyed, precisely that many string objects are left and only their storage; none without those two calls (c75_no_leak). Arguments that are references to elements of the same array are C16. Hash, searches and comparisons are C76."
  },
  {
   "property": "C76",
   "status": "partial",
   "theorems": [
    "Bdlib.Nest.c76_programs_partial",
    "Bdlib.Nest.c76_split_partial",
    "Bdlib.Nest.c76_join_partial",
    "Bdlib.Nest.c76_split_join_partial",
    "Bdlib.Nest.c76_equal_hash",
    "Bdlib.Nest.c76_reached"
   ],
   "note": "Two-level model (strings in cells of shared buffers). Partial: needs memmem, a non-empty delimiter and fewer than 2^31 characters for split (C28), C35's conditions for join, and elements that were not moved from; for the assertions of split see C111."
  },
  {
   "property": "C77",
   "status": "proved",
   "theorems": [
    "Bdlib.Rca.c77_refused",
    "Bdlib.Rca.c77_enough",
    "Bdlib.Rca.c77_capacity",
    "Bdlib.Rca.c77_quiet"
   ],
   "note": "For single calls of the class interface, in contract. The bound is in Spec/Need.lean and is computed from the values of the objects only."
  },
  {
   "property": "C78",
   "status": "partial",
   "theorems": [
    "Bdlib.Af.c78_crash_partial",
    "Bdlib.Af.c78_last_commit_partial",
    "Bdlib.Af.c78_commit_true_partial",
    "Bdlib.Af.c78_succeeds_partial",
    "Bdlib.Af.commit_ticks",
    "Bdlib.Af.abort_ticks",
    "Bdlib.Af.c78_refuted_names",
    "Bdlib.Af.c78_refuted_commit_closed",
    "Bdlib.Af.c78_refuted_copy",
    "Bdlib.Af.c78_refuted_copy_other"
   ],
   "note": "Partial: names up to 4085 bytes, no target looks like the temporary name of another, objects are not copied and commit() is called only on open ones; each exclusion has a refutation. The small steps are tied to the functions of the model by commit_ticks and abort_ticks."
  },
  {
   "property": "C79",
   "status": "partial",
   "theorems": [
    "Bdlib.Same.c79_values_partial",
    "Bdlib.Same.c79_keeps_partial",
    "Bdlib.Same.c79_race_free_partial",
    "Bdlib.Same.c79_finishes_partial",
    "Bdlib.Same.c79_prepare",
    "Bdlib.Same.c79_refuted_c_str",
    "Bdlib.Same.c79_refuted_null",
    "Bdlib.Same.c79_refuted_length",
    "Bdlib.Same.c79_refuted_hash",
    "Bdlib.Same.c79_refuted_hash_race",
    "Bdlib.Same.c79_refuted_c_str_race"
   ],
   "note": "Partial: c_str() only if there is a NUL behind the value (c79_prepare: one c_str() by one thread alone establishes that), and data race freedom only if the hash is cached or hash() is not called; each exclusion has a refutation. Memory is sequentially consistent."
  },
  {
   "property": "C80",
   "status": "partial",
   "theorems": [
    "Bdlib.Rca.c80_pointers_partial",
    "Bdlib.Rca.c80_elements_partial",
    "Bdlib.Rca.c80_iterators_partial",
    "Bdlib.Rca.c80_c_str",
    "Bdlib.Rca.c80_copy_pins",
    "Bdlib.Rca.c80_move",
    "Bdlib.Rca.c80_swap",
    "Bdlib.Rca.c80_begin",
    "Bdlib.Rca.c80_c_str_nul",
    "Bdlib.Rca.c80_c_str_room",
    "Bdlib.Rca.c80_refuted_begin",
    "Bdlib.Rca.c80_refuted_c_str",
    "Bdlib.Rca.c80_refuted_begin_shared",
    "Bdlib.Rca.c80_refuted_c_str_shared"
   ],
   "note": "Partial: length(), read(), operator[] const, at() and hash() on the object itself keep its pointers; non-const begin() and even the const c_str() do not when the storage is shared: begin() moves the elements in every such state, c_str() if no NUL follows the text (c80_refuted_begin_shared, c80_refuted_c_str_shared; what dangles then: c80_refuted_begin, c80_refuted_c_str). Otherwise both keep all pointers (c80_begin, c80_c_str_nul, c80_c_str_room)."
  },
  {
   "property": "C81",
   "status": "partial",
   "theorems": [
    "Bdlib.Rca.c81_room_partial",
    "Bdlib.Rca.c81_buffer_partial",
    "Bdlib.Rca.c81_queue",
    "Bdlib.Rca.c81_refuted_append",
    "Bdlib.Rca.c81_refuted_front"
   ],
   "note": "Partial: append, insert or replace of all of a longer array at position 0 takes over the storage of the argument and throws the reserved room away (c81_refuted_append); after elements were dropped at the front, growth within the room may move the elements (c81_refuted_front). pop/shift are stated for Array, which declares them."
  },
  {
   "property": "C82",
   "status": "partial",
   "theorems": [
    "Bdlib.Nest.c82_shift_partial",
    "Bdlib.Nest.c82_pop_partial",
    "Bdlib.Nest.c82_reached",
    "Bdlib.Nest.c82_refuted_shared",
    "Bdlib.Rca.c82_values_shift_partial",
    "Bdlib.Rca.c82_values_pop_partial",
    "Bdlib.Rca.c82_values_refuted_shared",
    "Bdlib.Rca.c82_values_refuted_shared_pop"
   ],
   "note": "Partial: proved for an array that shares its buffer with no other when the call is made. If it does, release builds move the element out from under the other arrays (the refuted theorems); debug builds stop at the assert."
  },
  {
   "property": "C83",
   "status": "partial",
   "theorems": [
    "Bdlib.Tcl.c83_history_partial",
    "Bdlib.Tcl.c83_shared_hooks",
    "Bdlib.Tcl.c83_data",
    "Bdlib.Tcl.c83_data_none",
    "Bdlib.Tcl.c83_refuted_other_hook_always",
    "Bdlib.Tcl.c83_refuted_taken_always",
    "Bdlib.Tcl.c83_refuted_spelling_always",
    "Bdlib.Tcl.c83_refuted_element",
    "Bdlib.Tcl.c83_refuted_other_hook",
    "Bdlib.Tcl.c83_refuted_other_unlink",
    "Bdlib.Tcl.c83_refuted_destroy",
    "Bdlib.Tcl.c83_refuted_spelling",
    "Bdlib.Tcl.c83_refuted_unset"
   ],
   "note": "Partial: proved for histories in which a name with a hook is linked and unlinked by one interpreter only, its variable is not unset by scripts and is set under the name given to linkVar and is no element of an array (the name is looked up without the index, so such a hook is never called: c83_refuted_element), and an interpreter is destroyed only when no other has hooks (names without hooks are free), with C63's conditions. Each restriction on hooks has its refutation. For all histories within C63's conditions, hooks and spellings of names, also by the program, unrestricted: nothing undefined, scripts get and C variables and buffers have what the specification says, and hooks are called as from one table for all interpreters (c83_shared_hooks); the violations follow after every history (_always). For all histories without any condition, also relinking names, the objects kept for linked buffers do not leak: at most one for each name given and not taken back (c83_data)."
  },
  {
   "property": "C84",
   "status": "partial",
   "theorems": [
    "Bdlib.Af.c84_saves_partial",
    "Bdlib.Af.c84_tidy_partial",
    "Bdlib.Af.c84_succeeds_partial",
    "Bdlib.Af.c84_reader_partial",
    "Bdlib.Af.c84_open_reader_partial",
    "Bdlib.Af.c84_reader_in_time_partial",
    "Bdlib.Af.c84_refuted_empty"
   ],
   "note": "Partial: names of up to 4085 bytes that do not end in a slash (C51); nothing left behind only if fchmod, fsync and unlink do not fail (c52_refuted_fsync); an empty stream is saved but an mmap build reports an error when loading it (c84_refuted_empty). Loading that overlaps with saving, each read at its own moment: c84_reader_in_time_partial."
  },
  {
   "property": "C85",
   "status": "partial",
   "theorems": [
    "Bdlib.Rca.c85_getline_partial",
    "Bdlib.Rca.c85_last_line_partial",
    "Bdlib.Rca.c85_token_partial",
    "Bdlib.Rca.c85_last_token_partial",
    "Bdlib.Rca.c85_bad",
    "Bdlib.Rca.c85_lines_partial",
    "Bdlib.Rca.c85_tokens_partial",
    "Bdlib.Rca.c85_refuted_lost"
   ],
   "note": "Partial: on bad_alloc one character more is gone from the stream than the String holds (c85_refuted_lost), and if the String was shared or grew it may be empty with all that was read lost; the fail bit at the end of the input is as in C60."
  },
  {
   "property": "C86",
   "status": "partial",
   "theorems": [
    "Bdlib.Tcl.c86_history_partial",
    "Bdlib.Tcl.c86_result_partial",
    "Bdlib.Tcl.c86_refuted_gone",
    "Bdlib.Tcl.c86_refuted_wrong_interp"
   ],
   "note": "Partial: the histories of commands covered by C57, parameters as in C62. The callback keeps a plain pointer: calling it after its interpreter was destroyed is undefined (c86_refuted_gone). Its interpreter is that of the registry entry, not the one that called: with one name in two interpreters it can be the wrong one (c86_refuted_wrong_interp)."
  },
  {
   "property": "C87",
   "status": "partial",
   "theorems": [
    "Bdlib.Rca.c87_load_fd_partial",
    "Bdlib.Rca.c87_load_partial",
    "Bdlib.Rca.c87_returned",
    "Bdlib.Rca.c87_history",
    "Bdlib.Rca.c87_save",
    "Bdlib.Rca.c87_roundtrip_partial",
    "Bdlib.Rca.c87_refuted_leak",
    "Bdlib.Rca.c87_refuted_witness"
   ],
   "note": "All of it holds when the call returns. When loading throws, loadFile(name) leaves its descriptor open, and loadFile(fd) its mapping or FILE, with loading still set: c87_refuted_leak (every time), c87_refuted_witness; c87_history counts them. After a throw the text left is a prefix of the file, and the position is its length or the text is empty. Errors of munmap in loadFile and of fclose, which the code ignores, are not modelled."
  },
  {
   "property": "C88",
   "status": "partial",
   "theorems": [
    "Bdlib.Rca.c88_tables_partial",
    "Bdlib.Rca.c88_elsewhere",
    "Bdlib.Rca.c88_refuted_lost_key"
   ],
   "note": "Within Behaves, calls on Strings must leave keys as they are (they are const) and not end the life of a value; c88_elsewhere says which do. Missing: insert(Key&&, ...) that fails for lack of buckets should leave its argument alone and does not (c88_refuted_lost_key). Construction from a list: C109. Not covered: reuse of nodes by assignment, references kept after their entry is gone, Strings changed through front()/back() (C04, C19)."
  },
  {
   "property": "C89",
   "status": "partial",
   "theorems": [
    "Bdlib.Rca.c89_call_partial",
    "Bdlib.Rca.c89_history_partial",
    "Bdlib.Rca.Reach32.reach",
    "Bdlib.Rca.c89_refuted_write",
    "Bdlib.Rca.c89_refuted_destroy"
   ],
   "note": "Proved while fewer than 2^31 - 1 objects share one buffer: then every call does what it does with counters that never wrap, so all properties of C01-C20 carry over (Reach32.reach). Refuted beyond that, from every reachable state: with 2^31 sharers an assignment to an Array element changes all copies; with one more, destroying any copy releases the storage the others use."
  },
  {
   "property": "C90",
   "status": "partial",
   "theorems": [
    "Bdlib.Wipe.c90_wiped_partial",
    "Bdlib.Wipe.c90_done_partial",
    "Bdlib.Wipe.c90_locked_partial",
    "Bdlib.Wipe.c90_refuted_race",
    "Bdlib.Wipe.c90_race_exactly"
   ],
   "note": "Refuted: cleanse() reads and writes a plain static counter, so two threads destroying unrelated Strings always have a schedule with a data race, which is undefined behaviour. Proved, taking the accesses as interleaved: what is released never depends on the contents, under any schedule; every thread finishes whatever the others do; with one destructor at a time there is no race and the bytes are those of the sequential loop."
  },
  {
   "property": "C91",
   "status": "partial",
   "theorems": [
    "Bdlib.Tcl.c91_contained_partial",
    "Bdlib.Tcl.c91_reply_partial",
    "Bdlib.Tcl.c91_same",
    "Bdlib.Tcl.c91_refuted_name",
    "Bdlib.Tcl.c91_refuted_handler",
    "Bdlib.Tcl.c91_order_contained_partial",
    "Bdlib.Tcl.c91_order_runs"
   ],
   "note": "Proved with memory for the library's own Strings: no exception leaves, and the reply is the value, the text thrown or 'Unhandled exception.', with the function's effects; for functions as in C56 the command is the same. Refuted without: the name of the command is made a String outside the try, and the handler of last resort allocates one itself, so a function that throws std::bad_alloc with memory still exhausted throws through the C interpreter."
  },
  {
   "property": "C92",
   "status": "partial",
   "theorems": [
    "Bdlib.Tcl.c92_write_partial",
    "Bdlib.Tcl.c92_link_partial",
    "Bdlib.Tcl.c92_link_first",
    "Bdlib.Tcl.c92_refuted_hook",
    "Bdlib.Tcl.c92_refuted_hook_buffer",
    "Bdlib.Tcl.c92_refuted_lost",
    "Bdlib.Tcl.c92_refuted_copy",
    "Bdlib.Tcl.c92_refuted_half",
    "Bdlib.Tcl.c92_refuted_dangling"
   ],
   "note": "Proved: with memory, hooks that return and conversions that do not throw, writes and links are exactly those of C63; a link that fails at its first allocation changes nothing. Refuted: there is no try in the traces, so exceptions of hooks and conversions go through the C interpreter; the old value is moved out before the new one is made, so it is lost if that throws; a linkVar that cannot store its hook throws but has linked the variable without it; linkVar of a buffer that fails after setting the traces deletes the data they refer to and leaves the traces, so the next read by a script is undefined."
  },
  {
   "property": "C93",
   "status": "partial",
   "theorems": [
    "Bdlib.Table.c93_safe_partial",
    "Bdlib.Table.c93_values_partial",
    "Bdlib.Table.c93_kept",
    "Bdlib.Table.c93_finishes",
    "Bdlib.Table.c93_race_free_partial",
    "Bdlib.Table.c93_refuted_key",
    "Bdlib.Table.c93_refuted_zero"
   ],
   "note": "Proved for all interleavings of single accesses: lookups are defined, right, and end within 3n + 2 own steps. No data race if the keys in the table remember their hash (or the library keeps the hashes) and a key object that does not is used by one thread only. Refuted otherwise: hash() const stores into the key without synchronisation, so two threads that look up the same fresh key race; and a String whose hash is 0 (\"glidpk\") never remembers it, so threads that look up other keys of its bucket race on the entry, again and again."
  },
  {
   "property": "C94",
   "status": "partial",
   "theorems": [
    "Bdlib.Tcl.Objs.c94_owned_partial",
    "Bdlib.Tcl.Objs.c94_freed_partial",
    "Bdlib.Tcl.Objs.c94_reply_partial",
    "Bdlib.Tcl.Objs.c94_read_partial",
    "Bdlib.Tcl.Objs.c94_words_partial",
    "Bdlib.Tcl.Objs.c94_refuted_long"
   ],
   "note": "Proved for texts of fewer than 2^31 - 1 bytes. Longer ones: the conversion gives a null pointer, which is handed to Tcl as result, list element or name (undefined); only the read of a linked text checks for it."
  },
  {
   "property": "C95",
   "status": "partial",
   "theorems": [
    "Bdlib.Af.c95_read_partial",
    "Bdlib.Af.c95_behind_partial",
    "Bdlib.Af.c95_replaced_partial",
    "Bdlib.Af.c95_refuted_through"
   ],
   "note": "Names of up to 4085 bytes, chains that end in an existing file and do not pass through the literal template name (which commit() without an open file removes, C52). Refuted: the link is not written through, so name and file behind it differ after a commit."
  },
  {
   "property": "C96",
   "status": "partial",
   "theorems": [
    "Bdlib.Interps.c96_scripts_partial",
    "Bdlib.Interps.c96_call",
    "Bdlib.Interps.c96_locked_partial",
    "Bdlib.Interps.c96_refuted_race",
    "Bdlib.Interps.c96_refuted_destroy"
   ],
   "note": "Proved for threads that only run scripts, and for one call at a time. Refuted for registering, removing and destroying: in every state they race with any use of the same table in another thread; and destroying one interpreter makes the next command call in any other thread follow a null pointer. The tables are sequentially consistent cells; the counter of cleanse() is C90."
  },
  {
   "property": "C97",
   "status": "partial",
   "theorems": [
    "Bdlib.Cstr.c97_programs_partial",
    "Bdlib.Cstr.c97_nothing_left",
    "Bdlib.Cstr.c97_refuted_null"
   ],
   "note": "Proved for all programs within the contract (no variable that owns a block is overwritten, str_redup not from the variable itself: C43) except the last sentence: the wrappers of calloc and realloc end the process with status 5 whenever a request is refused, so no null pointer is ever returned."
  },
  {
   "property": "C98",
   "status": "partial",
   "theorems": [
    "Bdlib.Tcl.c98_hooks_partial",
    "Bdlib.Tcl.c98_depth_partial",
    "Bdlib.Tcl.c98_refuted_own"
   ],
   "note": "Proved for all programs within the contract of C63 (checked at each call, also of hooks), for hooks that return, except one thing: what a script run by a hook puts into the hook's own variable does not reach the C variable, calls no hook and is lost when the hook returns (c98_refuted_own)."
  },
  {
   "property": "C99",
   "status": "partial",
   "theorems": [
    "Bdlib.Elems.c99_partial",
    "Bdlib.Elems.c99_leaks",
    "Bdlib.Elems.c99_append",
    "Bdlib.Elems.c99_kept",
    "Bdlib.Elems.c99_shift",
    "Bdlib.Elems.c99_pop",
    "Bdlib.Elems.c99_refuted_insert",
    "Bdlib.Elems.c99_refuted_cow",
    "Bdlib.Elems.c99_refuted_leak",
    "Bdlib.Elems.c99_refuted_fill"
   ],
   "note": "Proved: no undefined behaviour, other arrays unaffected, the array usable (c99_partial); at most one buffer lost per call that throws (c99_leaks); if moving does not throw and the elements are not shared, append and resize are all or nothing, and insert and replace keep the elements before the place and the length (c99_append, c99_kept); shift and pop return the element, or the array has all its elements if moving does not throw (c99_shift, c99_pop). Refuted: the array keeps its elements (insert, writing to shared elements), nothing is lost, and resize(len, value) and the constructor of n copies are safe. Move assignment and insertion of an array&& are modelled for arrays that go then (o = f(), o.append(f())); a list from iterators is inserted one by one, and stays in part if that throws."
  },
  {
   "property": "C100",
   "status": "proved",
   "theorems": [
    "Bdlib.Deep.c100_nested_arrays",
    "Bdlib.Deep.c100_inner_calls",
    "Bdlib.Deep.c100_append",
    "Bdlib.Deep.c100_read",
    "Bdlib.Deep.c100_modify",
    "Bdlib.Deep.c100_no_leak",
    "Bdlib.Deep.c100_deep_append",
    "Bdlib.Deep.c100_greet"
   ],
   "note": "c100_nested_arrays: every history of calls at every depth, including calls on elements of elements to any depth. c100_deep_append: appending to one string at any depth changes that string and nothing else at any depth. c100_greet: a program with Array<Array<String>> within contract. The two calls that construct over live elements are left out because they leak (C75); arguments that are elements of the array called are left out."
  },
  {
   "property": "C101",
   "status": "proved",
   "theorems": [
    "Bdlib.Deep.c101_equal",
    "Bdlib.Deep.c101_copy_equal",
    "Bdlib.Deep.c101_hash",
    "Bdlib.Deep.c101_equal_hash",
    "Bdlib.Deep.c101_hash_after_append",
    "Bdlib.Deep.c101_find",
    "Bdlib.Deep.c101_find_from",
    "Bdlib.Deep.c101_rfind",
    "Bdlib.Deep.c101_look",
    "Bdlib.Deep.c101_deep_length",
    "Bdlib.Deep.c101_greet"
   ],
   "note": "The calls are part of the histories of C100 (Deep/Spec.lean). Contents must be known, i.e. no part was moved from on a platform where that leaves it unspecified. Changes through front(), back(), read() or an iterator obtained before hash() was called are not calls here: they leave a stale hash (C04, C72)."
  },
  {
   "property": "C102",
   "status": "partial",
   "theorems": [
    "Bdlib.Deep.c102_for_ever",
    "Bdlib.Deep.c102_next",
    "Bdlib.Deep.c102_plays",
    "Bdlib.Deep.c102_from_script",
    "Bdlib.Deep.c102_from_script_deeper",
    "Bdlib.Deep.c102_to_script_partial",
    "Bdlib.Deep.c102_round_trip_partial",
    "Bdlib.Deep.c102_rows",
    "Bdlib.Deep.c102_rows_fail",
    "Bdlib.Deep.c102_refuted_long"
   ],
   "note": "Partial only for objects with a string of 2^31 - 1 bytes or more somewhere in them on the way to Tcl: a String becomes a null pointer, an array of any depth has undefined behaviour (c102_refuted_long, for all of them). The code has the conversions for depth 0, 1 and 2; the theorems are for every depth."
  },
  {
   "property": "C103",
   "status": "partial",
   "theorems": [
    "Bdlib.Deep.c103_tables_partial",
    "Bdlib.Deep.c103_elsewhere",
    "Bdlib.Deep.c103_refuted_lost_key"
   ],
   "note": "Partial: an insert that throws may have moved from a key passed as an rvalue (c103_refuted_lost_key), so 'a failing call changes nothing' does not hold for that argument; the specification says so in AddsNone."
  },
  {
   "property": "C104",
   "status": "partial",
   "theorems": [
    "Bdlib.Deep.c104_append_partial",
    "Bdlib.Deep.c104_insert_partial",
    "Bdlib.Deep.c104_write",
    "Bdlib.Deep.c104_replace",
    "Bdlib.Deep.c104_append_inner",
    "Bdlib.Deep.c104_refuted_append",
    "Bdlib.Deep.c104_refuted_insert"
   ],
   "note": "write and replace hold in full, also within one array. push_back and insert are proved unless x is b itself and does not share its storage: then the reference dangles if the array grows (c104_refuted_append) or names the element before if it shifts (c104_refuted_insert); C16 says which for each state."
  },
  {
   "property": "C105",
   "status": "partial",
   "theorems": [
    "Bdlib.Deep.c105_command_partial",
    "Bdlib.Deep.c105_void",
    "Bdlib.Deep.c105_push_partial",
    "Bdlib.Deep.c105_add",
    "Bdlib.Deep.c105_refuted_long"
   ],
   "note": "c105_command_partial: any function with a result; partial because strings in the result must be shorter than 2^31 - 1 bytes; a function that returns anything else hands a null pointer to Tcl (c105_refuted_long: any function without parameters, any depth). c105_void: functions without a result, in full. c105_push_partial and c105_add: two functions worked out for all programs, words and depths. The replies for exceptions and a wrong number of words are C56 and C91."
  },
  {
   "property": "C106",
   "status": "partial",
   "theorems": [
    "Bdlib.Deep.c106_any",
    "Bdlib.Deep.c106_exchange",
    "Bdlib.Deep.c106_swap",
    "Bdlib.Deep.c106_reverse",
    "Bdlib.Deep.c106_sort",
    "Bdlib.Deep.c106_descending",
    "Bdlib.Deep.c106_part",
    "Bdlib.Deep.c106_strings_partial",
    "Bdlib.Deep.c106_stable",
    "Bdlib.Deep.c106_unique",
    "Bdlib.Deep.c106_inside"
   ],
   "note": "c106_any holds for every algorithm, at every depth, with iterators of both kinds; the others work out exchanging, reversing, sorting, sorting with reverse iterators, removing repetitions, parts of arrays, and arrays inside arrays. Partial only where Strings are sorted by <: their lengths must differ by less than 2^31, because < is wrong otherwise (c24_refuted_long)."
  },
  {
   "property": "C107",
   "status": "proved",
   "theorems": [
    "Bdlib.Rca.c107_any",
    "Bdlib.Rca.c107_backwards",
    "Bdlib.Rca.c107_part",
    "Bdlib.Rca.c107_exchange",
    "Bdlib.Rca.c107_reverse",
    "Bdlib.Rca.c107_sort",
    "Bdlib.Rca.c107_remove",
    "Bdlib.Rca.c107_transform"
   ],
   "note": "c107_any, c107_backwards and c107_part hold for all such code; the others work out exchanging, reversing, sorting (the insertion sort the standard library uses for short ranges), removing and transforming."
  },
  {
   "property": "C108",
   "status": "partial",
   "theorems": [
    "Bdlib.Rca.c108_moved",
    "Bdlib.Rca.c108_failed",
    "Bdlib.Rca.c108_clear",
    "Bdlib.Rca.c108_assign",
    "Bdlib.Rca.c108_seek",
    "Bdlib.Rca.c108_drop",
    "Bdlib.Rca.c108_refuted_moved",
    "Bdlib.Rca.c108_refuted_empty"
   ],
   "note": "All but the last sentence is proved; that one is false. A moved-from stream still reports its length, reading from it is undefined, and puts writes behind bytes nobody wrote; in the build for tests puts throws out_of_range and reading up to a delimiter is undefined. After a failed puts, see c73_refuted_puts."
  },
  {
   "property": "C109",
   "status": "proved",
   "theorems": [
    "Bdlib.Rca.c109_programs",
    "Bdlib.Rca.c109_lookup"
   ],
   "note": "c109_programs includes what C88 proves of the other calls; a failing insert(Key&&) is as in C88."
  },
  {
   "property": "C110",
   "status": "proved",
   "theorems": [
    "Bdlib.Deep.c110_programs",
    "Bdlib.Deep.c110_lookup"
   ],
   "note": "c110_programs includes what C103 proves of the other calls; a failing insert(Key&&) is as in C103."
  },
  {
   "property": "C111",
   "status": "partial",
   "theorems": [
    "Bdlib.Rca.c111_cow",
    "Bdlib.Rca.c111_terminated",
    "Bdlib.Rca.c111_take",
    "Bdlib.Rca.c111_take_empty",
    "Bdlib.Rca.c111_calls_partial",
    "Bdlib.Rca.c111_empty",
    "Bdlib.Nest.c111_split",
    "Bdlib.Nest.c111_start",
    "Bdlib.Nest.c111_cow",
    "Bdlib.Nest.c111_array_calls",
    "Bdlib.Nest.c111_acts",
    "Bdlib.Nest.c111_programs_partial",
    "Bdlib.Conc.c111_cow_calm_partial",
    "Bdlib.Conc.c111_cow_private",
    "Bdlib.Conc.c111_refuted_cow",
    "Bdlib.Conc.c111_split_exactly",
    "Bdlib.Conc.c111_refuted_split"
   ],
   "note": "One thread: full, for all programs of strings, arrays of plain values and arrays of strings (c111_calls_partial, c111_programs_partial). Threads: copy-on-write asserts that its storage is shared, which another thread may have ended meanwhile (c111_refuted_cow); split asserts that only its own pieces have changed the counter, which holds exactly if other threads hold as many copies as before (c111_split_exactly, c111_refuted_split). Temporaries that share storage fail assertions too: c69_shared_aborts, c82_refuted_shared."
  },
  {
   "property": "C112",
   "status": "partial",
   "theorems": [
    "Bdlib.Rca.c112_bounded",
    "Bdlib.Rca.c112_bounded_code",
    "Bdlib.Rca.c112_program",
    "Bdlib.Rca.c112_memory",
    "Bdlib.Rca.c112_cost_partial",
    "Bdlib.Rca.c112_cost_law",
    "Bdlib.Rca.c112_refuted_cost"
   ],
   "note": "(1) and (2): full. (3) is false of the code: an Array whose elements fill its storage moves all of them back to the front on every push_back that follows a shift, in every round, for ever (c112_refuted_cost). It holds for push_back, shift and pop on storage of its own of at least twice the size (c112_cost_partial); for storage of any size c112_cost_law gives the bound (m - 1)(c + k)/(c + 1 - m) for k calls. push_front costs a move of all elements and is not part of (3)'s proved half."
  },
  {
   "property": "C113",
   "status": "proved",
   "theorems": [
    "Bdlib.B64.c113_decode_overlap",
    "Bdlib.B64.c113_decode_in_place",
    "Bdlib.B64.c113_encode_overlap",
    "Bdlib.B64.c113_encode_at_end",
    "Bdlib.B64.c113_encode_pieces",
    "Bdlib.B64.c113_decode_pieces",
    "Bdlib.B64.c113_decode_concat"
   ],
   "note": "The condition for encoding cannot be weakened by one byte, see the examples in Props/C113.lean."
  },
  {
   "property": "C114",
   "status": "partial",
   "theorems": [
    "Bdlib.Stm.c114_map_partial",
    "Bdlib.Stm.c114_map_grows",
    "Bdlib.Stm.c114_stdio",
    "Bdlib.Stm.c114_stdio_grows",
    "Bdlib.Stm.c114_stdio_ends",
    "Bdlib.Stm.c114_saving_partial",
    "Bdlib.Stm.c114_saving_unchanged",
    "Bdlib.Stm.c114_unchanged",
    "Bdlib.Stm.c114_refuted_killed",
    "Bdlib.Stm.c114_refuted_zeros",
    "Bdlib.Stm.c114_refuted_saving",
    "Bdlib.Stm.c114_refuted_endless",
    "Bdlib.Stm.c114_refuted_torn"
   ],
   "note": "Partial because the code violates it. In the mmap build the program is killed exactly if a byte is copied when it lies behind the last page the file then has (c114_refuted_killed, c114_refuted_saving), and bytes cut off within the last page become zeros although success is reported (c114_refuted_zeros). In the stdio build loading does not end while another program appends as fast (c114_refuted_endless); it ends for files of bounded length (c114_stdio_ends). Everything else is proved for both builds."
  },
  {
   "property": "C115",
   "status": "partial",
   "theorems": [
    "Bdlib.Stm.c115_seen_partial",
    "Bdlib.Stm.c115_whole",
    "Bdlib.Stm.c115_last",
    "Bdlib.Stm.c115_fd_mmap",
    "Bdlib.Stm.c115_fd_stdio",
    "Bdlib.Stm.c115_reader",
    "Bdlib.Stm.c115_steps",
    "Bdlib.Stm.c115_many",
    "Bdlib.Stm.c115_refuted_mixed",
    "Bdlib.Stm.c115_refuted_neither",
    "Bdlib.Stm.c115_refuted_zeros",
    "Bdlib.Stm.c115_refuted_reader"
   ],
   "note": "Partial because the code violates it: for a moment the file is always empty (c115_refuted_neither), and in an mmap build all zeros (c115_refuted_zeros). Proved: it is the file from before or a part of the text, with zeros for what is missing in an mmap build and a beginning of it in a stdio build (c115_seen_partial); if as long as the text and without a zero it is the text (c115_whole); the last state is what C48 is about (c115_last); on descriptors, exactly which bytes change (c115_fd_mmap, c115_fd_stdio); a program that loads the file meanwhile gets bytes of the old and the new texts and zeros (c115_reader), or is killed in an mmap build (c115_refuted_reader). Several programs saving at once, interleaved step by step: c115_many; their texts can end up mixed although all report success (c115_refuted_mixed). After a crash of the system nothing is promised, as writeFile does not call fsync; AtomicFile is for that (C49, C84)."
  },
  {
   "property": "C116",
   "status": "partial",
   "theorems": [
    "Bdlib.Stm.c116_save_partial",
    "Bdlib.Stm.c116_save_room",
    "Bdlib.Stm.c116_save_stdio",
    "Bdlib.Stm.c116_load_partial",
    "Bdlib.Stm.c116_refuted_save",
    "Bdlib.Stm.c116_refuted_load",
    "Bdlib.Stm.c116_refuted_short"
   ],
   "note": "Partial because the code violates it. An mmap build is killed exactly if the text is longer than the room on the disk (c116_refuted_save: ftruncate makes holes, which take no room until they are written through the mapping) or a byte of the file is on a page that cannot be read (c116_refuted_load). A stdio build reports a full disk (c116_save_stdio), but takes what is before an unreadable page for the whole file (c116_refuted_short)."
  }
 ]
}