alloca.c find_stack_direction 107-127
alloca.c alloca 161-221
alloca.c i00afunc 343-408
alloca.c i00afunc 417-486
arg.c arg_create 61-75
arg.c arg_destroy 80-91
arg.c arg_add 95-109
arg.c arg_addn 114-128
arg.c arg_grow 135-141
arg.c arg_finish 146-160
arg.c { 	Arg a = (Arg)arg; 165-175
arg.c _arg_check 180-183
arg.c arg_get_vector 188-195
arg.c char2char_type 213-242
arg.c arg_argify 245-308
base26.c b26_encode 62-79
base26.c b26_decode 81-101
base64.c b64_encode 82-97
base64.c b64_decode_buf 99-117
base64.c b64_decode 119-122
bit.c bit_set 36-39
bit.c bit_clr 43-46
bit.c bit_tst 51-54
bit.c bit_cnt 58-82
debug.c _dbg_exists 55-58
debug.c _dbg_name 63-78
debug.c _dbg_register 82-104
debug.c dbg_register 114-123
debug.c dbg_set 128-160
debug.c dbg_set_flag 165-168
debug.c dbg_unset_flag 173-176
debug.c dbg_test 181-184
debug.c dbg_destroy 191-197
debug.c _dbg_user 200-208
debug.c _dbg_builtin 210-218
debug.c dbg_list 223-227
error.c err_set_program_name 42-55
error.c err_program_name 61-64
error.c err_fatal 71-98
error.c err_fatal_errno 105-135
error.c err_warning 141-165
error.c err_internal 171-204
flags.c _flg_exists 54-57
flags.c flg_name 62-76
flags.c flg_register 82-104
flags.c flg_set 109-145
flags.c flg_test 150-153
flags.c flg_destroy 160-166
flags.c _flg_user 169-175
flags.c flg_list 179-182
hash.c _hsh_check 60-72
hash.c _hsh_create 74-102
hash.c hsh_create 127-133
hash.c _hsh_destroy_buckets 135-154
hash.c _hsh_destroy_table 156-164
hash.c hsh_destroy 174-181
hash.c _hsh_insert 183-204
hash.c hsh_insert 216-262
hash.c hsh_delete 268-294
hash.c hsh_retrieve 300-329
hash.c hsh_iterate 338-359
hash.c hsh_iterate_arg 368-391
hash.c _hsh_key_strings 394-404
hash.c hsh_key_strings 407-411
hash.c hsh_get_stats 416-453
hash.c hsh_print_stats 459-480
hash.c hsh_string_hash 482-500
hash.c hsh_pointer_hash 502-528
hash.c hsh_string_compare 530-537
hash.c hsh_pointer_compare 539-550
hash.c hsh_init_position 556-567
hash.c hsh_next_position 573-594
hash.c hsh_get_position 600-609
hash.c hsh_readonly 617-627
list.c _lst_check 55-65
list.c lst_total_allocated 67-70
list.c lst_create 74-89
list.c _lst_shutdown 91-95
list.c lst_destroy 101-118
list.c lst_append 122-145
list.c lst_push 149-162
list.c lst_pop 167-185
list.c lst_top 191-201
list.c lst_nth_get 206-220
list.c lst_nth_set 227-244
list.c lst_member 251-262
list.c lst_length 266-272
list.c lst_truncate 277-312
list.c lst_truncate_position 320-347
list.c lst_iterate 354-363
list.c lst_iterate_arg 370-381
list.c lst_init_position 387-393
list.c lst_last_position 399-405
list.c lst_next_position 411-417
list.c lst_nth_position 422-436
list.c lst_get_position 441-447
list.c lst_set_position 452-457
list.c _lst_dump_node 463-467
list.c lst_dump 469-472
log.c _log_set_hostname 125-136
log.c log_set_facility 138-149
log.c log_get_facility 151-158
log.c log_option 160-164
log.c log_syslog 166-183
log.c log_mkpath 185-199
log.c _log_check_filename 201-220
log.c log_file 222-258
log.c log_stream 260-285
log.c log_close 287-292
log.c _log_base_va 294-356
log.c log_error_va 358-361
log.c log_error 363-370
log.c log_info_va 372-375
log.c log_info 377-384
maa.c maa_init 35-47
maa.c maa_shutdown 49-70
maa.c maa_version_major 72-75
maa.c maa_version_minor 77-80
maa.c maa_version_teeny 82-85
maa.c maa_version 87-94
memory.c _mem_magic_strings 65-74
memory.c mem_create_strings 79-92
memory.c mem_destroy_strings 99-114
memory.c mem_strcpy 119-135
memory.c mem_strncpy 141-158
memory.c mem_grow 165-185
memory.c mem_finish 190-203
memory.c mem_get_string_stats 209-220
memory.c mem_print_string_stats 226-237
memory.c _mem_magic_objects 242-251
memory.c mem_create_objects 257-272
memory.c mem_destroy_objects 279-295
memory.c mem_get_object 303-321
memory.c mem_get_empty_object 326-334
memory.c mem_free_object 341-349
memory.c mem_get_object_stats 355-375
memory.c mem_print_object_stats 381-395
mkrnd.c main 29-45
parse-concrete.c prs_register_concrete 30-35
parse-concrete.c prs_concrete 37-41
parse-concrete.c _prs_shutdown 43-46
pr.c _pr_check 48-60
pr.c max_fd 68-85
pr.c _pr_init 87-91
pr.c _pr_shutdown 93-109
pr.c pr_open 112-115
pr.c pr_open2 117-229
pr.c pr_close_nowait 262-275
pr.c pr_close 277-282
pr.c pr_readwrite 284-384
pr.c pr_filter 386-395
pr.c pr_spawn 397-447
prime.c prm_is_prime 43-59
prime.c prm_next_prime 64-70
rnd.c init_rand 757-760
rnd.c get_rand 762-778
set.c _set_check 64-74
set.c _set_create 76-102
set.c set_create 126-129
set.c set_get_hash 131-137
set.c set_get_compare 139-145
set.c _set_destroy_buckets 147-166
set.c _set_destroy_table 168-178
set.c set_destroy 188-197
set.c _set_insert 199-215
set.c set_insert 226-269
set.c set_delete 274-300
set.c set_member 305-333
set.c set_iterate 342-368
set.c set_iterate_arg 377-404
set.c set_init_position 410-421
set.c set_next_position 427-448
set.c set_get_position 453-459
set.c set_readonly 467-477
set.c set_add 485-512
set.c set_del 520-547
set.c set_union 554-593
set.c set_inter 600-635
set.c set_diff 643-678
set.c set_equal 685-721
set.c set_count 723-729
set.c set_get_stats 734-773
set.c set_print_stats 778-800
sl.c _sl_check_list 78-88
sl.c _sl_check_entry 93-106
sl.c _sl_check 112-137
sl.c _sl_create_entry 140-159
sl.c sl_create 172-202
sl.c sl_destroy 209-227
sl.c _sl_shutdown 233-237
sl.c { 	static int i = 0; 241-246
sl.c _sl_random_level 249-259
sl.c _sl_print 261-268
sl.c _sl_locate 270-284
sl.c sl_insert 289-324
sl.c sl_delete 328-359
sl.c sl_find 364-376
sl.c sl_iterate 383-413
sl.c sl_iterate_arg 420-451
sl.c _sl_dump 456-483
source.c src_create 62-70
source.c src_destroy 75-82
source.c src_line 86-105
source.c src_new_file 110-113
source.c src_new_line 118-121
source.c src_advance 126-129
source.c src_cpp_line 131-157
source.c src_get 164-192
source.c src_filename 197-205
source.c src_linenumber 210-218
source.c src_offset 223-231
source.c src_length 236-244
source.c src_source_line 249-257
source.c src_get_stats 263-290
source.c src_print_stats 296-308
source.c _src_print_yyerror 310-341
source.c src_print_line 347-356
source.c _src_print_error 358-375
source.c src_parse_error 388-399
source.c src_print_error 406-424
source.c src_print_message 428-444
stack.c stk_create 47-55
stack.c stk_destroy 61-67
stack.c stk_push 71-79
stack.c stk_pop 84-99
stack.c stk_isempty 104-113
stack.c stk_top 119-127
string.c str_pool_create 48-56
string.c str_pool_destroy 61-71
string.c str_pool_exists 76-83
string.c str_pool_find 91-101
string.c str_pool_iterate 111-128
string.c str_pool_iterate_arg 138-156
string.c str_pool_init_position 158-163
string.c str_pool_next_position 165-170
string.c str_pool_get_position 172-175
string.c str_pool_copy 182-187
string.c str_pool_copyn 195-200
string.c str_pool_grow 207-212
string.c str_pool_finish 220-230
string.c str_pool_get_stats 235-261
string.c str_pool_print_stats 267-278
string.c _str_check_global 280-283
string.c str_exists 288-291
string.c str_find 299-303
string.c str_findn 309-318
string.c str_copy 326-330
string.c str_copyn 336-339
string.c str_grow 345-349
string.c str_finish 357-361
string.c str_unique 368-377
string.c str_destroy 387-391
string.c str_get_stats 396-399
string.c str_print_stats 405-408
text.c txt_soundex2 40-70
text.c txt_soundex 72-77
timer.c _tim_check 47-50
timer.c tim_start 54-73
timer.c tim_stop 77-104
timer.c tim_reset 109-123
timer.c tim_get_real 129-139
timer.c tim_get_user 143-190
timer.c tim_get_system 194-204
timer.c tim_print_timer 209-216
timer.c _tim_iterator 218-224
timer.c tim_print_timers 228-231
timer.c _tim_freer 233-237
timer.c _tim_shutdown 243-250
xmalloc.c xmalloc 30-38
xmalloc.c xcalloc 40-48
xmalloc.c xrealloc 50-60
xmalloc.c xfree 62-66
xmalloc.c xstrdup 68-78
