"""plan.py ID WHAT HOW FINDING -- insert a plan row after the last plan row and append a Findings line."""
import sys, re
ident, what, how, finding = sys.argv[1:5]
path = '/verif/DESIGN.md'
lines = open(path).read().split('\n')
last = max(i for i, l in enumerate(lines) if re.match(r'\| C\d+', l) and l.count(' | ') == 2)
lines.insert(last + 1, f'| {ident} | {what} | {how} |')
text = '\n'.join(lines).rstrip('\n')
if finding:
    text += f'\n- **{ident}, {finding}'
open(path, 'w').write(text + '\n')
