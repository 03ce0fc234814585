#!/usr/bin/env python3
"""Write lean/Verif/App/OptionTables.lean from the option classes in /repo, which are generated from JSON files.

Every line of the constructor, of the members, of the getters, of the help pages and of operator<< must be recognized:
otherwise the script fails.
"""
import re, sys
from fractions import Fraction

PROGRAMS = [
    ('hnco', 'lib/hnco/app/hnco-options', 'HncoOptions'),
    ('hncoMo', 'lib/hnco/multiobjective/app/hnco-mo-options', 'HncoOptions'),
    ('ffgen', 'app/ffgen-options', 'FfgenOptions'),
    ('mapgen', 'app/mapgen-options', 'MapgenOptions'),
]
KIND = {'int': 'int', 'double': 'double', 'std::string': 'string', 'bool': 'bool', 'unsigned': 'unsigned', 'string': 'string'}

def fail(msg):
    sys.exit('options.py: ' + msg)

def lstr(s):
    return '"' + s.replace('\\', '\\\\').replace('"', '\\"') + '"'

def unquote(s):
    return re.sub(r'\\(.)', r'\1', s)

def rat(s):
    f = Fraction(s)
    return str(f.numerator) if f.denominator == 1 else '(%d / %d)' % (f.numerator, f.denominator)

def value(kind, text):
    if kind == 'int':
        return '.int ' + (text if not text.startswith('-') else '(%s)' % text)
    if kind == 'double':
        return '.double ' + rat(text)
    if kind == 'string':
        return '.str ' + lstr(text) + '.toList'
    if kind == 'bool':
        return '.bool ' + text
    fail('default of kind ' + kind)

def option(v):
    return 'none' if v is None else '(some (%s))' % v

def letter(c):
    return 'none' if c is None else "(some '%s')" % c

def table(name, doc, typ, rows):
    return '/-- %s -/\ndef %s : List %s := [\n  %s]\n' % (doc, name, typ, ',\n  '.join(rows))

out = ['''import Verif.App.Options

/-!
# The options of the programs

The tables of the classes `HncoOptions`, `hnco::multiobjective::app::HncoOptions`, `FfgenOptions` and `MapgenOptions`.  Written
by `tools/options.py` from the source: one row for each row, member, case, getter or line in the source.
-/

namespace Hnco
''']

for prog, path, cls in PROGRAMS:
    cc = open('/repo/%s.cc' % path).read().split('\n')
    hh = open('/repo/%s.hh' % path).read().split('\n')
    # --- long options
    a = next(i for i, l in enumerate(cc) if 'struct option long_options[]' in l)
    b = next(i for i, l in enumerate(cc) if l.strip() == '};' and i > a)
    longs = []
    for l in cc[a + 1:b]:
        if l.strip() == '{0, no_argument, 0, 0}':
            continue
        m = re.fullmatch(r'\s*\{"([^"]+)", (required|no)_argument, 0, OPTION_(\w+)\},', l) or fail('long option ' + l)
        longs.append((m[1], m[2] == 'required', m[3]))
    lines_long = (a + 2, b)
    m = re.fullmatch(r'\s*const char \*short_options = "([^"]*)";', cc[b + 1]) or fail('short options')
    short = m[1]
    line_short = b + 2
    rest = [l.strip() for l in cc[b + 2:b + 8]]
    if rest != ['optind = 0;', 'while (true) {', 'int option = getopt_long(argc, argv, short_options, long_options, 0);',
                'if (option < 0)', 'break;', 'switch (option) {']:
        fail('loop ' + repr(rest))
    # --- enum
    a = next(i for i, l in enumerate(hh) if l.strip() == 'enum {')
    e = next(i for i, l in enumerate(hh) if l.strip() == '};' and i > a)
    enum = [l.strip().rstrip(',') for l in hh[a + 1:e]]
    if enum[0] != 'OPTION_HELP=256':
        fail('enum')
    enum[0] = 'OPTION_HELP'
    enum = [x[len('OPTION_'):] for x in enum]
    lines_enum = (a + 2, e)
    # --- switch
    i = b + 8
    line_switch = i + 1
    cases = []
    while cc[i].strip() != 'default:':
        codes = []
        while True:
            m = re.fullmatch(r"\s*case (?:'(.)'|OPTION_(\w+)):", cc[i])
            if not m:
                break
            codes.append(('c', m[1]) if m[1] else ('o', m[2]))
            i += 1
        if not codes:
            fail('case %d %s' % (i + 1, cc[i]))
        body = []
        while cc[i].strip() not in ('break;', 'exit(0);'):
            body.append(cc[i].strip())
            i += 1
        end = cc[i].strip()
        i += 1
        if cc[i].strip() == '':
            i += 1
        if end == 'exit(0);':
            m = len(body) == 1 and re.fullmatch(r'print_(\w+)\(std::cerr\);', body[0]) or fail('exit ' + repr(body))
            act = '.show %s' % lstr(m[1])
        elif len(body) == 1:
            m = re.fullmatch(r'_(\w+) = true;', body[0]) or fail('flag ' + repr(body))
            act = '.raise %s' % lstr(m[1])
        else:
            if len(body) == 6:
                m = re.fullmatch(r'std::cerr << _exec_name << ": (\w+) must be true or false" << std::endl;', body[1])
                if body[0] != 'if (!check_string_as_bool(std::string(optarg))) {' or not m or body[2:4] != ['exit(1);', '}']:
                    fail('bool ' + repr(body))
                body = body[4:]
                isbool = True
            else:
                isbool = False
            m = re.fullmatch(r'_with_(\w+) = true;', body[0]) or fail('assign ' + repr(body))
            w = m[1]
            m = re.fullmatch(r'_(\w+) = (.*);', body[1]) or fail('assign ' + repr(body))
            conv = {'std::atoi(optarg)': 'int', 'std::atof(optarg)': 'double', 'std::string(optarg)': 'string',
                    'std::strtoul(optarg, NULL, 0)': 'unsigned', '(std::string(optarg) == "true")': 'bool'}[m[2]]
            if (conv == 'bool') != isbool or len(body) != 2:
                fail('assign ' + repr(body))
            act = '.assign %s %s .%s' % (lstr(w), lstr(m[1]), conv)
        cases.append((codes, act))
    if [l.strip() for l in cc[i + 1:i + 9]] != [
            'if (!ignore_bad_options) {',
            'std::cerr << "For more information, please enter: " << _exec_name << " --help" << std::endl;',
            'exit(1);', '}', '}', '}', '}', '']:
        fail('default ' + repr(cc[i:i + 9]))
    lines_switch = (line_switch, i + 5)
    # --- members
    i = e + 1
    members, flags = [], []
    first = None
    while 'void print_help' not in hh[i + 1]:
        l = hh[i].strip()
        if l == '' or l.startswith('///'):
            i += 1
            continue
        first = first or i + 1
        m = re.fullmatch(r'(int|double|bool|std::string|unsigned) _(\w+)(?: = (.*))?;', l) or fail('member ' + l)
        nxt = hh[i + 1].strip()
        if nxt == 'bool _with_%s = false;' % m[2]:
            kind = KIND[m[1]]
            d = m[3]
            if d is not None and kind == 'string':
                if d[0] != '"' or d[-1] != '"':
                    fail('string ' + d)
                d = unquote(d[1:-1])
            members.append((m[2], kind, d))
            last = i + 2
            i += 2
        else:
            if m[1] != 'bool' or m[3] != 'false':
                fail('flag ' + l)
            flags.append(m[2])
            last = i + 1
            i += 1
    lines_members = (first, last)
    # --- getters
    text = '\n'.join(hh[i:])
    getters = []
    pos = 0
    gfirst = glast = None
    for m in re.finditer(r'  (int|double|bool|std::string|unsigned) get_(\w+)\(\) const \{([^}]*)\}', text):
        body = ' '.join(m[3].split())
        g = re.fullmatch(r'return _(\w+);', body)
        if g:
            getters.append((m[2], KIND[m[1]], None, g[1]))
        else:
            g = re.fullmatch(r'if \(_with_(\w+)\) return _(\w+); else throw std::runtime_error\("\w+::get_(\w+): Parameter (\w+) has no '
                             r'default value and has not been set"\);', body) or fail('getter ' + body)
            getters.append((m[2], KIND[m[1]], g[1], g[2]))
        ln = i + 1 + text[:m.start()].count('\n')
        gfirst = gfirst or ln
        glast = i + 1 + text[:m.end()].count('\n')
    withs = re.findall(r'  bool with_(\w+)\(\) const \{ return _(\w+); \}', text)
    if len(re.findall(r'\) const \{', text)) != len(getters) + len(withs):
        fail('getters')
    wlast = i + 1 + text[:text.rindex('bool with_')].count('\n')
    if withs[:len(members)] != [(m[0], 'with_' + m[0]) for m in members]:
        fail('with')
    if withs[len(members):] != [(f, f) for f in flags]:
        fail('with flags')
    # --- help
    helps, pages, page = [], [], None
    hfirst = None
    for n, l in enumerate(cc):
        m = re.match(r'void %s::print_(\w+)\(' % cls, l)
        if m:
            page = m[1]
            pages.append(page)
        m = re.fullmatch(r'  stream << "(?:  -(.), |      )--([a-z0-9-]+)(?: \(type (\w+), (?:(no default)|default to (.*))\))?" << std::endl;', l)
        if m:
            hfirst = hfirst or n + 1
            hlast = n + 1
            kind = KIND[m[3]] if m[3] else None
            d = m[5]
            if d is not None:
                d = unquote(d)
                if kind == 'string':
                    if d[0] != '"' or d[-1] != '"':
                        fail('help ' + l)
                    d = d[1:-1]
            if kind is None and m[2].startswith('help-'):
                kind = 'shows'
            helps.append((page, m[1], m[2], kind, d))
        elif page == 'help' and l == '  stream << "usage: " << _exec_name << " [--help] [--version] [options]" << std::endl << std::endl;':
            hfirst = hfirst or n + 1
            helps.append((page, None, 'help', 'shows', None))
            helps.append((page, None, 'version', 'shows', None))
        elif re.match(r'\s*stream << "[^"]{0,8}--', l):
            fail('help ' + l)
    # --- print
    a = next(i for i, l in enumerate(cc) if 'operator<<' in l)
    if cc[a + 2].strip() != 'stream << std::boolalpha;':
        fail('print')
    i = a + 3
    prints = []
    pfirst = i + 1
    while '# last_parameter' not in cc[i]:
        g = re.fullmatch(r'  if \(options\._(\w+)\)', cc[i])
        if g:
            i += 1
        l = cc[i].strip()
        m = re.fullmatch(r'stream << "# (\w+) = " << options\._(\w+) << std::endl;', l)
        q = re.fullmatch(r'stream << "# (\w+) = \\"" << options\._(\w+) << "\\"" << std::endl;', l)
        f = re.fullmatch(r'stream << "# (\w+) " << std::endl;', l)
        if f:
            prints.append('.flag %s %s' % (lstr(g[1]), lstr(f[1])))
        else:
            guard = 'none'
            if g:
                w = re.fullmatch(r'with_(\w+)', g[1]) or fail('guard ' + g[1])
                guard = '(some %s)' % lstr(w[1])
            m, quoted = (m, 'false') if m else (q, 'true')
            if not m:
                fail('print ' + l)
            prints.append('.value %s %s %s %s' % (guard, lstr(m[1]), lstr(m[2]), quoted))
        i += 1
    plast = i
    tail = [l.strip() for l in cc[i:i + 6]]
    # --- emit
    code = lambda c: "'%s'.toNat" % c[1] if c[0] == 'c' else str(256 + enum.index(c[1]))
    out.append('\n/-! ## `%s` -/\n' % cls)
    out.append(table(prog + 'LongOptions', '`long_options` (`%s.cc:%d-%d`); the value of an enumerator (`%s.hh:%d-%d`) is a number.' %
        (path, *lines_long, path, *lines_enum), 'LongOption',
        ['⟨%s.toList, %s, %d⟩' % (lstr(n), 'true' if r else 'false', 256 + enum.index(o)) for n, r, o in longs]))
    out.append('/-- `short_options` (`%s.cc:%d`). -/\ndef %sShortOptions : List Char := %s.toList\n' % (path, line_short, prog, lstr(short)))
    out.append(table(prog + 'Cases', 'The cases of the switch (`%s.cc:%d-%d`).' % (path, *lines_switch), '(List Nat × OptAction)',
        ['([%s], %s)' % (', '.join(code(c) for c in codes), act) for codes, act in cases]))
    out.append(table(prog + 'Members', 'The parameters, their types and initial values (`%s.hh:%d-%d`).' % (path, *lines_members), 'OptMember',
        ['⟨%s, .%s, %s⟩' % (lstr(n), k, option(value(k, d) if d is not None else None)) for n, k, d in members]))
    out.append('/-- The flags (`%s.hh:%d-%d`). -/\ndef %sFlags : List String := [\n  %s]\n' %
        (path, *lines_members, prog, ',\n  '.join(lstr(f) for f in flags)))
    out.append(table(prog + 'Getters', 'The getters of parameters (`%s.hh:%d-%d`).' % (path, gfirst, wlast), 'OptGetter',
        ['⟨%s, %s, %s⟩' % (lstr(n), 'none' if w is None else '(some %s)' % lstr(w), lstr(v)) for n, k, w, v in getters]))
    out.append(table(prog + 'Help', 'The options in the help pages (`%s.cc:%d-%d`).' % (path, hfirst, hlast), 'OptDoc',
        ['⟨%s, %s, %s⟩' % (letter(c), lstr(n) + '.toList', '.flag' if k is None else '.shows' if k == 'shows' else
            '.value .%s %s' % (k, option(value(k, d) if d is not None else None)))
         for p, c, n, k, d in helps]))
    out.append(table(prog + 'Prints', 'The lines of `operator<<` (`%s.cc:%d-%d`).' % (path, pfirst, plast), 'OptPrint', prints))
    out.append('/-- The class (`%s.hh`, `%s.cc`). -/\ndef %sClass : OptClass where\n' % (path, path, prog) +
        ''.join('  %s := %s%s\n' % (f, prog, t) for f, t in [('long', 'LongOptions'), ('short', 'ShortOptions'), ('cases', 'Cases'),
            ('members', 'Members'), ('flags', 'Flags'), ('getters', 'Getters'), ('help', 'Help'), ('prints', 'Prints')]))
    print(prog, len(longs), len(cases), len(members), len(flags), len(getters), len(helps), len(prints), pages, tail, file=sys.stderr)
out.append('\nend Hnco\n')
open('/verif/lean/Verif/App/OptionTables.lean', 'w').write('\n'.join(out))
