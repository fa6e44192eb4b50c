MUTANTS = []


def m(name, definition, edit, claim, expect, *edits):
    MUTANTS.append(dict(name=name, definition=definition, edit=edit, claim=claim,
                        expect=expect.split(), edits=list(edits)))


T = 'Evaluation'
m('ex_op_swap', 'operatorText', 'the signs of and and xor are swapped', 'C94', 'C94_reads_partial',
  (T, 'else if op = "BitAnd" then .ok "&"\n  else if op = "BitXor" then .ok "^"', 'else if op = "BitAnd" then .ok "^"\n  else if op = "BitXor" then .ok "&"'))
m('ex_op_missing', 'operatorText', 'xor is not supported', 'C94', 'C94_reads_partial',
  (T, '  else if op = "BitXor" then .ok "^"\n', ''))
m('ex_tuple_one', 'tupleText', 'tuples of one element have no comma', 'C94', 'C94_reads_partial',
  (T, '"(" ++ t ++ ",)"', '"(" ++ t ++ ")"'))
m('ex_tuple_bare', 'tupleText', 'tuples have no parentheses', 'C94', 'C94_reads_partial',
  (T, '| ts => "(" ++ ", ".intercalate ts ++ ")"', '| ts => ", ".intercalate ts'))
m('ex_tuple_sep', 'tupleText', 'elements are separated by blanks', 'C94', 'C94_reads_partial',
  (T, '| ts => "(" ++ ", ".intercalate ts', '| ts => "(" ++ " ".intercalate ts'))
m('ex_list', 'toStr', 'lists become tuples', 'C94', 'C94_reads_partial',
  (T, '.ok ("[" ++ ", ".intercalate ts ++ "]")', '.ok (tupleText ts)'))
m('ex_attr', 'toStr', 'only the last name of attributes is kept', 'C94', 'C94_reads_partial',
  (T, '| .ok t => .ok (t ++ "." ++ attr)', '| .ok _ => .ok attr'))
m('ex_sign', 'toStr', 'signs are swapped', 'C94', 'C94_reads_partial',
  (T, 'if tag = "UnaryOp USub" then "-" else "+"', 'if tag = "UnaryOp USub" then "+" else "-"'))
m('ex_sides', 'toStr', 'operands are swapped', 'C94', 'C94_reads_partial',
  (T, '.ok (l ++ " " ++ o ++ " " ++ r)', '.ok (r ++ " " ++ o ++ " " ++ l)'))
m('ex_elements', 'toStrs', 'elements in reverse order', 'C94', 'C94_reads_partial',
  (T, '| .ok ts => .ok (t :: ts)', '| .ok ts => .ok (ts ++ [t])'))
m('ex_none', 'Atom.text', 'None is written as a type', 'C94', 'C94_reads_partial',
  (T, '| .none => "None"', '| .none => "NoneType"'))
