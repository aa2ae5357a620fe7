import Verif.Basic

/-!
# Highlight types

Generated by `tools/gen_types.py` from the table `ULIGHT_HIGHLIGHT_TYPE_ENUM_DATA`
(include/ulight/ulight.hpp:122-307) and the values of `ulight_highlight_type`
(include/ulight/ulight.h:228-700).
-/

namespace Ulight

/-- `ulight::Highlight_Type` (include/ulight/ulight.hpp:122-330); the enumerators keep their names. -/
inductive HT where
  | none
  | error
  | comment
  | comment_delim
  | comment_doc
  | comment_doc_delim
  | value
  | value_delim
  | null
  | bool_
  | number
  | number_delim
  | number_decor
  | string
  | string_delim
  | string_decor
  | string_escape
  | string_interpolation
  | string_interpolation_delim
  | name
  | name_decl
  | name_builtin
  | name_delim
  | name_var
  | name_var_decl
  | name_var_builtin
  | name_var_delim
  | name_const
  | name_const_decl
  | name_const_builtin
  | name_const_delim
  | name_function
  | name_function_decl
  | name_function_builtin
  | name_function_delim
  | name_type
  | name_type_decl
  | name_type_builtin
  | name_type_delim
  | name_module
  | name_module_decl
  | name_module_builtin
  | name_module_delim
  | name_label
  | name_label_decl
  | name_label_builtin
  | name_label_delim
  | name_parameter
  | name_parameter_decl
  | name_parameter_builtin
  | name_parameter_delim
  | name_nonterminal
  | name_nonterminal_decl
  | name_nonterminal_builtin
  | name_nonterminal_delim
  | name_lifetime
  | name_lifetime_decl
  | name_lifetime_builtin
  | name_lifetime_delim
  | name_instruction
  | name_instruction_decl
  | name_instruction_pseudo
  | name_instruction_delim
  | name_attr
  | name_attr_decl
  | name_attr_builtin
  | name_attr_delim
  | name_shell_command
  | name_shell_command_decl
  | name_shell_command_builtin
  | name_shell_command_delim
  | name_shell_option
  | name_shell_option_decl
  | name_shell_option_builtin
  | name_shell_option_delim
  | name_macro
  | name_macro_decl
  | name_macro_builtin
  | name_macro_delim
  | name_directive
  | name_directive_decl
  | name_directive_builtin
  | name_directive_delim
  | keyword
  | keyword_control
  | keyword_type
  | keyword_op
  | keyword_this
  | diff_heading
  | diff_heading_delim
  | diff_heading_hunk
  | diff_heading_hunk_delim
  | diff_common
  | diff_common_delim
  | diff_deletion
  | diff_deletion_delim
  | diff_insertion
  | diff_insertion_delim
  | diff_modification
  | diff_modification_delim
  | markup_tag
  | markup_tag_decl
  | markup_tag_builtin
  | markup_tag_delim
  | markup_attr
  | markup_attr_decl
  | markup_attr_builtin
  | markup_attr_delim
  | text
  | text_heading
  | text_link
  | text_mark
  | text_math
  | text_subscript
  | text_superscript
  | text_quote
  | text_small
  | text_mono
  | text_code
  | text_italic
  | text_emph
  | text_bold
  | text_strong
  | text_underline
  | text_insertion
  | text_strikethrough
  | text_deletion
  | symbol
  | symbol_punc
  | symbol_op
  | symbol_formatting
  | symbol_bracket
  | symbol_parens
  | symbol_square
  | symbol_brace
  deriving DecidableEq, Repr

/-- The numeric value of an enumerator (include/ulight/ulight.h:228-700). -/
def HT.val : HT → Nat
  | .none => 0x00
  | .error => 0x01
  | .comment => 0x10
  | .comment_delim => 0x11
  | .comment_doc => 0x12
  | .comment_doc_delim => 0x13
  | .value => 0x20
  | .value_delim => 0x21
  | .null => 0x22
  | .bool_ => 0x24
  | .number => 0x30
  | .number_delim => 0x31
  | .number_decor => 0x32
  | .string => 0x38
  | .string_delim => 0x39
  | .string_decor => 0x3a
  | .string_escape => 0x3c
  | .string_interpolation => 0x3e
  | .string_interpolation_delim => 0x3f
  | .name => 0x40
  | .name_decl => 0x41
  | .name_builtin => 0x42
  | .name_delim => 0x43
  | .name_var => 0x44
  | .name_var_decl => 0x45
  | .name_var_builtin => 0x46
  | .name_var_delim => 0x47
  | .name_const => 0x48
  | .name_const_decl => 0x49
  | .name_const_builtin => 0x4a
  | .name_const_delim => 0x4b
  | .name_function => 0x4c
  | .name_function_decl => 0x4d
  | .name_function_builtin => 0x4e
  | .name_function_delim => 0x4f
  | .name_type => 0x50
  | .name_type_decl => 0x51
  | .name_type_builtin => 0x52
  | .name_type_delim => 0x53
  | .name_module => 0x54
  | .name_module_decl => 0x55
  | .name_module_builtin => 0x56
  | .name_module_delim => 0x57
  | .name_label => 0x58
  | .name_label_decl => 0x59
  | .name_label_builtin => 0x5a
  | .name_label_delim => 0x5b
  | .name_parameter => 0x5c
  | .name_parameter_decl => 0x5d
  | .name_parameter_builtin => 0x5e
  | .name_parameter_delim => 0x5f
  | .name_nonterminal => 0x60
  | .name_nonterminal_decl => 0x61
  | .name_nonterminal_builtin => 0x62
  | .name_nonterminal_delim => 0x63
  | .name_lifetime => 0x64
  | .name_lifetime_decl => 0x65
  | .name_lifetime_builtin => 0x66
  | .name_lifetime_delim => 0x67
  | .name_instruction => 0x68
  | .name_instruction_decl => 0x69
  | .name_instruction_pseudo => 0x6a
  | .name_instruction_delim => 0x6b
  | .name_attr => 0x6c
  | .name_attr_decl => 0x6d
  | .name_attr_builtin => 0x6e
  | .name_attr_delim => 0x6f
  | .name_shell_command => 0x70
  | .name_shell_command_decl => 0x71
  | .name_shell_command_builtin => 0x72
  | .name_shell_command_delim => 0x73
  | .name_shell_option => 0x74
  | .name_shell_option_decl => 0x75
  | .name_shell_option_builtin => 0x76
  | .name_shell_option_delim => 0x77
  | .name_macro => 0x78
  | .name_macro_decl => 0x79
  | .name_macro_builtin => 0x7a
  | .name_macro_delim => 0x7b
  | .name_directive => 0x7c
  | .name_directive_decl => 0x7d
  | .name_directive_builtin => 0x7e
  | .name_directive_delim => 0x7f
  | .keyword => 0x90
  | .keyword_control => 0x91
  | .keyword_type => 0x92
  | .keyword_op => 0x93
  | .keyword_this => 0x94
  | .diff_heading => 0xa0
  | .diff_heading_delim => 0xa1
  | .diff_heading_hunk => 0xa2
  | .diff_heading_hunk_delim => 0xa3
  | .diff_common => 0xa8
  | .diff_common_delim => 0xa9
  | .diff_deletion => 0xaa
  | .diff_deletion_delim => 0xab
  | .diff_insertion => 0xac
  | .diff_insertion_delim => 0xad
  | .diff_modification => 0xae
  | .diff_modification_delim => 0xaf
  | .markup_tag => 0xb0
  | .markup_tag_decl => 0xb1
  | .markup_tag_builtin => 0xb2
  | .markup_tag_delim => 0xb3
  | .markup_attr => 0xb4
  | .markup_attr_decl => 0xb5
  | .markup_attr_builtin => 0xb6
  | .markup_attr_delim => 0xb7
  | .text => 0xc0
  | .text_heading => 0xc1
  | .text_link => 0xc2
  | .text_mark => 0xc3
  | .text_math => 0xc4
  | .text_subscript => 0xc5
  | .text_superscript => 0xc6
  | .text_quote => 0xc7
  | .text_small => 0xc8
  | .text_mono => 0xd0
  | .text_code => 0xd1
  | .text_italic => 0xd2
  | .text_emph => 0xd3
  | .text_bold => 0xd4
  | .text_strong => 0xd5
  | .text_underline => 0xd6
  | .text_insertion => 0xd7
  | .text_strikethrough => 0xd8
  | .text_deletion => 0xd9
  | .symbol => 0xe0
  | .symbol_punc => 0xe1
  | .symbol_op => 0xe2
  | .symbol_formatting => 0xe3
  | .symbol_bracket => 0xe4
  | .symbol_parens => 0xe5
  | .symbol_square => 0xe6
  | .symbol_brace => 0xe7

/-- All rows of the table: (type, identifier, long string, short string)
(include/ulight/ulight.hpp:122-307). -/
def hlTable : List (HT × Bytes × Bytes × Bytes) := [
  (.none, b!"none", b!"", b!""),
  (.error, b!"error", b!"error", b!"err"),
  (.comment, b!"comment", b!"comment", b!"cmt"),
  (.comment_delim, b!"comment_delim", b!"comment-delim", b!"cmt_dlim"),
  (.comment_doc, b!"comment_doc", b!"comment-doc", b!"cmt_doc"),
  (.comment_doc_delim, b!"comment_doc_delim", b!"comment-doc-delim", b!"cmt_doc_dlim"),
  (.value, b!"value", b!"value", b!"val"),
  (.value_delim, b!"value_delim", b!"value-delim", b!"val_dlim"),
  (.null, b!"null", b!"null", b!"null"),
  (.bool_, b!"bool_", b!"bool", b!"bool"),
  (.number, b!"number", b!"number", b!"num"),
  (.number_delim, b!"number_delim", b!"number-delim", b!"num_dlim"),
  (.number_decor, b!"number_decor", b!"number-decor", b!"num_deco"),
  (.string, b!"string", b!"string", b!"str"),
  (.string_delim, b!"string_delim", b!"string-delim", b!"str_dlim"),
  (.string_decor, b!"string_decor", b!"string-decor", b!"str_deco"),
  (.string_escape, b!"string_escape", b!"string-escape", b!"str_esc"),
  (.string_interpolation, b!"string_interpolation", b!"string-interpolation", b!"str_intp"),
  (.string_interpolation_delim, b!"string_interpolation_delim", b!"string-interpolation-delim", b!"str_intp_dlim"),
  (.name, b!"name", b!"name", b!"name"),
  (.name_decl, b!"name_decl", b!"name-decl", b!"name_decl"),
  (.name_builtin, b!"name_builtin", b!"name-builtin", b!"name_pre"),
  (.name_delim, b!"name_delim", b!"name-builtin-delim", b!"name_dlim"),
  (.name_var, b!"name_var", b!"name-var", b!"name_var"),
  (.name_var_decl, b!"name_var_decl", b!"name-var-decl", b!"name_var_decl"),
  (.name_var_builtin, b!"name_var_builtin", b!"name-var-builtin", b!"name_var_pre"),
  (.name_var_delim, b!"name_var_delim", b!"name-var-delim", b!"name_var_dlim"),
  (.name_const, b!"name_const", b!"name-const", b!"name_cons"),
  (.name_const_decl, b!"name_const_decl", b!"name-const-decl", b!"name_cons_decl"),
  (.name_const_builtin, b!"name_const_builtin", b!"name-const-builtin", b!"name_cons_pre"),
  (.name_const_delim, b!"name_const_delim", b!"name-const-delim", b!"name_cons_dlim"),
  (.name_function, b!"name_function", b!"name-function", b!"name_fun"),
  (.name_function_decl, b!"name_function_decl", b!"name-function-decl", b!"name_fun_decl"),
  (.name_function_builtin, b!"name_function_builtin", b!"name-function-builtin", b!"name_fun_pre"),
  (.name_function_delim, b!"name_function_delim", b!"name-function-delim", b!"name_fun_dlim"),
  (.name_type, b!"name_type", b!"name-type", b!"name_type"),
  (.name_type_decl, b!"name_type_decl", b!"name-type-decl", b!"name_type_decl"),
  (.name_type_builtin, b!"name_type_builtin", b!"name-type-builtin", b!"name_type_pre"),
  (.name_type_delim, b!"name_type_delim", b!"name-type-delim", b!"name_type_dlim"),
  (.name_module, b!"name_module", b!"name-module", b!"name_mod"),
  (.name_module_decl, b!"name_module_decl", b!"name-module-decl", b!"name_mod_decl"),
  (.name_module_builtin, b!"name_module_builtin", b!"name-module-builtin", b!"name_mod_pre"),
  (.name_module_delim, b!"name_module_delim", b!"name-module-delim", b!"name_mod_dlim"),
  (.name_label, b!"name_label", b!"name-label", b!"name_labl"),
  (.name_label_decl, b!"name_label_decl", b!"name-label-decl", b!"name_labl_decl"),
  (.name_label_builtin, b!"name_label_builtin", b!"name-label-builtin", b!"name_labl_pre"),
  (.name_label_delim, b!"name_label_delim", b!"name-label-delim", b!"name_labl_dlim"),
  (.name_parameter, b!"name_parameter", b!"name-parameter", b!"name_para"),
  (.name_parameter_decl, b!"name_parameter_decl", b!"name-parameter-decl", b!"name_para_decl"),
  (.name_parameter_builtin, b!"name_parameter_builtin", b!"name-parameter-builtin", b!"name_para_pre"),
  (.name_parameter_delim, b!"name_parameter_delim", b!"name-parameter-delim", b!"name_para_dlim"),
  (.name_nonterminal, b!"name_nonterminal", b!"name-nonterminal", b!"name_nt"),
  (.name_nonterminal_decl, b!"name_nonterminal_decl", b!"name-nonterminal-decl", b!"name_nt_decl"),
  (.name_nonterminal_builtin, b!"name_nonterminal_builtin", b!"name-nonterminal-builtin", b!"name_nt_pre"),
  (.name_nonterminal_delim, b!"name_nonterminal_delim", b!"name-nonterminal-delim", b!"name_nt_dlim"),
  (.name_lifetime, b!"name_lifetime", b!"name-lifetime", b!"name_life"),
  (.name_lifetime_decl, b!"name_lifetime_decl", b!"name-lifetime-decl", b!"name_life_decl"),
  (.name_lifetime_builtin, b!"name_lifetime_builtin", b!"name-lifetime-builtin", b!"name_life_pre"),
  (.name_lifetime_delim, b!"name_lifetime_delim", b!"name-lifetime-delim", b!"name_life_dlim"),
  (.name_instruction, b!"name_instruction", b!"name-instruction", b!"name_inst"),
  (.name_instruction_decl, b!"name_instruction_decl", b!"name-instruction-decl", b!"name_inst_decl"),
  (.name_instruction_pseudo, b!"name_instruction_pseudo", b!"name-instruction-pseudo", b!"asm_inst_pre"),
  (.name_instruction_delim, b!"name_instruction_delim", b!"name-instruction-delim", b!"asm_inst_dlim"),
  (.name_attr, b!"name_attr", b!"name-attr", b!"name_attr"),
  (.name_attr_decl, b!"name_attr_decl", b!"name-attr-decl", b!"name_attr_decl"),
  (.name_attr_builtin, b!"name_attr_builtin", b!"name-attr-builtin", b!"name_attr_pre"),
  (.name_attr_delim, b!"name_attr_delim", b!"name-attr-delim", b!"name_attr_dlim"),
  (.name_shell_command, b!"name_shell_command", b!"name-command", b!"name_cmd"),
  (.name_shell_command_decl, b!"name_shell_command_decl", b!"name-command-decl", b!"name_cmd_decl"),
  (.name_shell_command_builtin, b!"name_shell_command_builtin", b!"name-command-builtin", b!"sh_cmd_pre"),
  (.name_shell_command_delim, b!"name_shell_command_delim", b!"name-command-delim", b!"name_cmd"),
  (.name_shell_option, b!"name_shell_option", b!"name-option", b!"name_opt"),
  (.name_shell_option_decl, b!"name_shell_option_decl", b!"name-option-decl", b!"name_opt_decl"),
  (.name_shell_option_builtin, b!"name_shell_option_builtin", b!"name-option-builtin", b!"name_opt_pre"),
  (.name_shell_option_delim, b!"name_shell_option_delim", b!"name-option-delim", b!"name_opt_dlim"),
  (.name_macro, b!"name_macro", b!"name-macro", b!"name_mac"),
  (.name_macro_decl, b!"name_macro_decl", b!"name-macro-decl", b!"name_mac_decl"),
  (.name_macro_builtin, b!"name_macro_builtin", b!"name-macro-builtin", b!"name_mac_pre"),
  (.name_macro_delim, b!"name_macro_delim", b!"name-macro-delim", b!"name_mac_dlim"),
  (.name_directive, b!"name_directive", b!"name-directive", b!"name_dirt"),
  (.name_directive_decl, b!"name_directive_decl", b!"name-directive-decl", b!"name_dirt_decl"),
  (.name_directive_builtin, b!"name_directive_builtin", b!"name-directive-builtin", b!"name_dirt_pre"),
  (.name_directive_delim, b!"name_directive_delim", b!"name-directive-delim", b!"name_dirt_dlim"),
  (.keyword, b!"keyword", b!"keyword", b!"kw"),
  (.keyword_control, b!"keyword_control", b!"keyword-control", b!"kw_ctrl"),
  (.keyword_type, b!"keyword_type", b!"keyword-type", b!"kw_type"),
  (.keyword_op, b!"keyword_op", b!"keyword-op", b!"kw_op"),
  (.keyword_this, b!"keyword_this", b!"keyword-this", b!"kw_this"),
  (.diff_heading, b!"diff_heading", b!"diff-heading", b!"diff_head"),
  (.diff_heading_delim, b!"diff_heading_delim", b!"diff-heading-delim", b!"diff_head_dlim"),
  (.diff_heading_hunk, b!"diff_heading_hunk", b!"diff-heading-hunk", b!"diff_head_hunk"),
  (.diff_heading_hunk_delim, b!"diff_heading_hunk_delim", b!"diff-heading-hunk-delim", b!"diff_head_hunk_dlim"),
  (.diff_common, b!"diff_common", b!"diff-common", b!"diff_eq"),
  (.diff_common_delim, b!"diff_common_delim", b!"diff-common-delim", b!"diff_eq_dlim"),
  (.diff_deletion, b!"diff_deletion", b!"diff-deletion", b!"diff_del"),
  (.diff_deletion_delim, b!"diff_deletion_delim", b!"diff-deletion-delim", b!"diff_del_dlim"),
  (.diff_insertion, b!"diff_insertion", b!"diff-insertion", b!"diff_ins"),
  (.diff_insertion_delim, b!"diff_insertion_delim", b!"diff-insertion-delim", b!"diff_ins_dlim"),
  (.diff_modification, b!"diff_modification", b!"diff-modification", b!"diff_mod"),
  (.diff_modification_delim, b!"diff_modification_delim", b!"diff-modification-delim", b!"diff_mod_dlim"),
  (.markup_tag, b!"markup_tag", b!"markup-tag", b!"mk_tag"),
  (.markup_tag_decl, b!"markup_tag_decl", b!"markup-tag-decl", b!"mk_tag_decl"),
  (.markup_tag_builtin, b!"markup_tag_builtin", b!"markup-tag-builtin", b!"mk_tag_pre"),
  (.markup_tag_delim, b!"markup_tag_delim", b!"markup-tag-delim", b!"mk_tag_dlim"),
  (.markup_attr, b!"markup_attr", b!"markup-attr", b!"mk_attr"),
  (.markup_attr_decl, b!"markup_attr_decl", b!"markup-attr-decl", b!"mk_attr_decl"),
  (.markup_attr_builtin, b!"markup_attr_builtin", b!"markup-attr-builtin", b!"mk_attr_pre"),
  (.markup_attr_delim, b!"markup_attr_delim", b!"markup-attr-delim", b!"mk_attr_dlim"),
  (.text, b!"text", b!"text", b!"text"),
  (.text_heading, b!"text_heading", b!"text-heading", b!"text_head"),
  (.text_link, b!"text_link", b!"text-link", b!"text_link"),
  (.text_mark, b!"text_mark", b!"text-mark", b!"text_mark"),
  (.text_math, b!"text_math", b!"text-math", b!"text_math"),
  (.text_subscript, b!"text_subscript", b!"text-subscript", b!"text_sub"),
  (.text_superscript, b!"text_superscript", b!"text-superscript", b!"text_sup"),
  (.text_quote, b!"text_quote", b!"text-quote", b!"text_quot"),
  (.text_small, b!"text_small", b!"text-small", b!"text_smal"),
  (.text_mono, b!"text_mono", b!"text-mono", b!"text_mono"),
  (.text_code, b!"text_code", b!"text-code", b!"text_code"),
  (.text_italic, b!"text_italic", b!"text-italic", b!"text_ital"),
  (.text_emph, b!"text_emph", b!"text-emph", b!"text_emph"),
  (.text_bold, b!"text_bold", b!"text-bold", b!"text_bold"),
  (.text_strong, b!"text_strong", b!"text-strong", b!"text_stro"),
  (.text_underline, b!"text_underline", b!"text-underline", b!"text_ulin"),
  (.text_insertion, b!"text_insertion", b!"text-insertion", b!"text_ins"),
  (.text_strikethrough, b!"text_strikethrough", b!"text-strikethrough", b!"text_strk"),
  (.text_deletion, b!"text_deletion", b!"text-deletion", b!"text_del"),
  (.symbol, b!"symbol", b!"symbol", b!"sym"),
  (.symbol_punc, b!"symbol_punc", b!"symbol-punc", b!"sym_punc"),
  (.symbol_op, b!"symbol_op", b!"symbol-op", b!"sym_op"),
  (.symbol_formatting, b!"symbol_formatting", b!"symbol-formatting", b!"sym_fmt"),
  (.symbol_bracket, b!"symbol_bracket", b!"symbol-bracket", b!"sym_bket"),
  (.symbol_parens, b!"symbol_parens", b!"symbol-parens", b!"sym_par"),
  (.symbol_square, b!"symbol_square", b!"symbol-square", b!"sym_sqr"),
  (.symbol_brace, b!"symbol_brace", b!"symbol-brace", b!"sym_brac")
]

end Ulight
