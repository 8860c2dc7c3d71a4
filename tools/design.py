"""Write DESIGN.md: the text below, and tables from properties.jsonl, MANIFEST.json, the model's citations of /repo and the axioms that Lean reports.

Run from anywhere; needs a built lean/ directory for the axioms (`--axioms` to refresh tools/axioms.json)."""
import collections, glob, json, os, re, subprocess, sys
root = os.path.dirname(os.path.dirname(os.path.abspath(__file__)))
lean = os.path.join(root, 'lean')
props = [json.loads(l) for l in open(os.path.join(root, 'properties.jsonl')) if l.strip()]
manifest = {c['property']: c for c in json.load(open(os.path.join(root, 'MANIFEST.json')))['claims']}

# how the theorems of each module of lean/Verif/Props are proved
METHOD = {
 'Accounting': 'list induction over recorded cash flows; modular arithmetic for conversions',
 'Averages': 'induction over the loops; real logarithms and exponentials',
 'Algorithms': 'induction over the loops; list algebra; rational arithmetic',
 'BlockPool': 'invariant over all histories of insertions and erasures, with the chain of free blocks and the rounds of their indices explicit',
 'BlockingQueue': 'transition system of threads; invariants over all interleavings of any number of threads, with the order of entering and leaving recorded',
 'Codes': 'modular arithmetic (Luhn, CUSIP, SEDOL, modulo 97), list induction',
 'Communicator': 'permutation and sortedness lemmas over the priority multimaps, for any shuffle',
 'Company': 'induction over histories of announcements, prices and holdings; exact rational arithmetic',
 'Construction': 'case analysis over the class hierarchy; induction over chains of derived classes',
 'Distributed': 'invariants over histories of collective operations; migration as a transition system with termination and absence of deadlock',
 'Exchange': 'induction over event histories, using the order book theorems',
 'Identity': 'list induction; invariant over all creation histories; injectivity of decimal printing',
 'Impact': 'list induction over orders and properties; the scheduler for the stalls',
 'Interval': 'case analysis over the four kinds of intervals',
 'Inventory': 'list induction over bundles; conservation invariant over transfer histories',
 'Iso': 'independent tables of the standards; every row is compared by the kernel',
 'Log': 'list induction; all schedules of threads that lock the mutex',
 'MarketMakerDouble': 'The same function with every operation rounded to binary64 and an arbitrary logarithm that is zero for one and not negative from there on; order is preserved because rounding is monotone.',
 'MarketMaker': 'real arithmetic with the logarithm',
 'MessageCode': 'bit arithmetic',
 'Messages': 'case analysis over constructors; composition of round trips; rational arithmetic',
 'Names': 'the tables of the source as functions; distinctness of keys and names checked by the kernel over the whole table',
 'OpenBook': 'byte arithmetic; induction over the stream of messages',
 'OrderBook': 'invariants by induction over histories of inserts and cancels, on sorted queues',
 'Output': 'induction over histories of puts and added streams',
 'Sharing': 'invariant over all programs: the counts of each control block equal the variables and deleters that hold it; induction along chains of conversions in both directions',
 'Bindings': 'induction over dictionaries, lists and programs; case analysis on Python objects',
 'Printing': 'error bound of IEEE rounding against half a digit; unique splitting of texts at separators',
 'Price': 'case analysis on currencies and variants; integer order',
 'Clearing': 'composition of the lemmas on quotes, transfers, settlement and netting; exact rational inequalities for the budget',
 'PriceArithmetic': 'integer range analysis; error bounds of IEEE rounding proved for all rationals, then chained through the operations',
 'Unique': 'invariant (held plus in transit) over all histories of giving and receiving; the agreement of sets and inventories by induction with it',
 'QuantityNumber': 'monotonicity of IEEE rounding, proved for all rationals; exactness below 2^53 and a rounding tie above it',
 'Holders': 'three ledgers (congruence modulo 2^64, an upper bound, outstanding obligations) as invariants of every job, exchange of messages, round and step of a run, composed with the transfer callback',
 'Venue': 'a balance of units as an invariant of the matching loop and of every operation of a book; summed over the messages that a callback of an exchange handles; then a ledger over all agents and all messages on their way as an invariant of every job, exchange of messages, round and step of a run, where sending an order creates units and reporting consumes them',
 'QuotedBook': 'refinement: every operation on a book with quotes that are quoted alike is the operation on the book with integers, by induction over the matching loop and the history; an invariant (one currency and lot on both sides) for histories with several currencies',
 'Population': 'worlds reached by rounds as an inductive relation; every round of a history is taken apart into who acts, what is created, deleted and sent; invariants for wake-ups and for messages between agents that stay; refinement to the fixed population',
 'Immediate': 'induction over the rounds of a run with the times of what happened before; a message for the current time keeps its recipient due',
 'Dividends': 'an invariant of the state of one agent and the log, kept by each of its jobs and by the actions of others; the last action before a date, and the wake-ups of C19, show that the company acts on the date; messages dated in the past (C21) show that runs do not complete',
 'Payout': 'relative error of a chain of IEEE roundings, as a relation closed under rounding, products and quotients; sums over classes; evaluation by the kernel for the counterexamples',
 'Grid': 'a permutation of the index range and the digits of a mixed radix; monotonicity and relative error of IEEE roundings; integer range analysis',
 'Simplex': 'error of a running IEEE sum and of repeated differences, by induction; monotonicity of rounding; evaluation by the kernel for the counterexamples',
 'Listing': 'The names of the properties and the operators that write inventories to a stream are functions to lists of characters. The names are compared pair by pair; the contents are read back from the text by splitting it at the first colon or comma and at the first character that is not a digit.',
 'Overrides': 'Python classes are tables from methods to bodies, which are lists of statements; virtual calls, the wrappers and the functions of the library that call them are an interpreter with a recursion limit for Python and a number of steps for the simulation. Runs are followed by induction over the steps, recursion by induction over the limit.',
 'Callbacks': 'Variables are slots that exist or exist no more; a handle is the number of a slot. That no sequence of actions revives a slot is an induction over the sequence.',
 'Hashing': 'An unordered container is a list of buckets with an arbitrary hash function; the invariant is that every entry is in the bucket of its hash, and looking up a key is shown to agree with a dictionary by induction over the operations, including changes of the number of buckets.',
 'Solvers': 'Model of what tatonnement.cpp passes between Adept and GSL: excess demands are multivariate polynomials, derivatives are formal ones (Mathlib), the storage orders of the two libraries are assumptions; and of the memory and error handler events of each solution method, run by a checker with undefined behaviour as an outcome. Proved by list indexing, by induction over the steps of Newton\'s method, and by induction over the list of methods and over calls.',
 'Poisson': 'Model of the inversion loop of the zero-truncated Poisson distribution over the real numbers (Mathlib). The loop is shown to return the first k whose partial sum, of a series given in closed form, is at least the uniform random number; the partial sums are compared with the distribution function by induction and by bounds on the exponential function.',
 'Distance': 'Model of get_best_distance with 32-bit squares and real square roots and powers (Mathlib). The two nested loops for minima are specified by induction, and 32-bit squares are shown to be exact for differences below 65536.',
 'Notices': 'Codecs for share classes, maps and policies, composed of those of C66; induction over the entries of a map, with the exact contents that are loaded; then the callback of C84 on the loaded message.',
 'Experiment': 'Cases over the types of Python values; induction over programs that set parameters, with the last value set as specification.',
 'Orders': 'Arithmetic of fixed width; cases over the members of orders; induction over lists of orders and histories of an exchange, with the conservation theorem of the order book.',
 'Values': 'Objects with addresses and dictionaries with stored hashes, by induction over all programs of assignments; a table of all attributes against the registry of classes, decided by the kernel and lifted to all registries.',
 'WalrasRounded': 'sums of the flows of C58 with bounded rounding of each payment',
 'QueueSize': 'invariants over all interleavings of the blocking queue; a thread that reads holds the mutex',
 'OrderLog': 'a filter on the loop over reports related to the messages of the exchange; an invariant on who owns the orders in the books; sums over the matching loop',
 'TatonnementRounded': 'The tatonnement again, with every addition and square rounded by an abstract function of bounded error. A sum is a fold; its error is bounded by induction on the list. The solver loops are treated as in C91. A separate theorem shows that the model without rounding is that of C91.',
 'WorkerPool': 'Transition system with one step per lock, access, unlock and notification of every thread; a relation of moves, invariants on it, counting of tasks, a measure that every step decreases.',
 'Parallel': 'Runs with several threads are runs with one thread (C23), to which the theorems on whole runs apply.',
 'Money': 'Rounding of rational numbers to doubles and to integers; the results on prices of C133 and on roundings.',
 'Feed': 'an invariant of the scheduler that every message in a queue satisfies, with an invariant of the order book (`Lemmas/FairBook`) that does not mention identifiers',
 'Constants': 'tables of the assignments, induction over the list that a later assignment of a name replaces an earlier one, and kernel evaluation that the finite tables agree',
 'Identifiable': 'case analysis on the classes of the library (a finite table), and list membership for chains of classes of any length that users derive from them',
 'QuotedPriority': 'Invariants (identifiers distinct and remembered with their keys; equal prices in the order of identifiers) by induction over histories with exceptions; executions are a prefix of the opposite side, all but the last in full.',
 'QuotedData': 'Invariant of the quoted books lifted to the exchange, event by event; every message is traced to a report of the insertion that caused it.',
 'QuotedCrossing': 'Invariant (sides sorted and alike, positive quantities, products of bids below products of asks, one currency) by induction over histories with exceptions; all comparisons of an order with one side throw, or none.',
 'QuotedSides': 'Invariant of both sides (keys are limits, pairwise comparable, sorted) by induction over histories with exceptions; each execution is traced to an entry that passed the comparison.',
 'QuotedUnits': 'Accounting identity for each operation of the quoted book, for every outcome, by induction over the matching loop; then induction over histories of the book and of the exchange.',
 'QuotedExchange': 'Refinement of the exchange over integers by the exchange over quotes, event by event; crossed market data excluded by the invariant of the books over integers.',
 'Version': 'The parser is run symbolically on the text of a file with arbitrary decimal numerals (lemmas on splitting and stripping), and compared with the literals of C++.',
 'Saved': 'Containers are shown to be given back by induction over ascending elements; what is not written stays the state of the target, for all targets.',
 'Calls': 'the types of objects that a program can have are in a set that all calls preserve, by induction over programs, and kernel evaluation over the table of functions; an invariant over all programs with dividends',
 'Hypercube': 'an invariant of the tables over the list of parameters, with the number of times that each was met; columns of samples as permutations and counts',
 'Latency': 'the latency of a turn does not depend on the recipient; arrival times by induction over the messages that the exchange handles in a turn; bounds in rational numbers',
 'Draws': 'the algorithm of std::seed_seq for one word is a fold of bijections of 32-bit words; an involution and multiplications by odd numbers; injectivity by induction over the words, transferred to the turns of every run',
 'DirectOrders': 'each act refines an operation of the book of its symbol, by induction over histories of messages and direct orders; case analysis of the loop over reports for what is sent',
 'Shuffle': 'the messages handled at a priority are the shuffled group, by induction over the groups; counting of orders and states of the generator, arithmetic of the generator modulo a number prime to its multiplier',
 'Seeds': 'induction over the rounds of a step and the steps of a run that turns are different; arithmetic modulo 2^32 for the words of the seed',
 'Attributes': 'Definitions of classes executed against a registry, by induction over the definitions; resolution of methods in two levels of classes; an invariant over all Python programs.',
 'Auction': 'the settlement of one clearing (C134) summed over participants, then a ledger with integer coefficients as an invariant of every job, exchange of messages, round and step of a run; what each job sends weighs nothing together',
 'Ledger': 'invariant over all jobs, exchanges, rounds and steps of a run: counts of every message, order of inboxes, calls made',
 'Announcements': 'induction over the rounds of a loop on a vector whose buffer may be replaced, for every growth policy that at most doubles the buffer, and induction over steps',
 'Python': 'dictionary laws over multimaps; case analysis over Python objects',
 'Quantity': 'integer arithmetic modulo 2^64',
 'Sampler': 'mixed radix bijection, permutation invariants for any random choices',
 'Scheduler': 'invariants over rounds and runs for arbitrary agent programs',
 'Serialization': 'round-trip laws of codecs, compositional',
 'StaticBook': 'simulation relation between the static book and the reference book over all histories',
 'StaticDouble': 'error bounds for every floating-point operation of the encoding and decoding of limits',
 'StaticCoding': 'exact rational arithmetic for the encoding of limits',
 'Tatonnement': 'induction over the loops around the solver, which is an oracle; rational arithmetic',
 'Text': 'list induction over what is printed and split',
 'ThreadPool': 'transition system of workers, queue and destructor; invariant over all interleavings',
 'Threads': 'commutation of jobs on disjoint state; all interleavings reduce to the sequential run',
 'Ticker': 'lexicographic order; unambiguous printing; maps by insertion histories',
 'Walras': 'list induction over participants and properties, for any sort order and any solver result',
}
# files with code that no model cites, and why
REASON = {
 'esl/computation/timing.hpp': 'two durations, for profiling; `serialize` (54-68) builds the pairs of name and value but archives none of them',
 'esl/computation/type_code.hpp': 'no state, the code itself is in MessageCode',
 'esl/computation/type_marker.hpp': 'compile-time marker without state',
 'esl/data/channel.cpp': 'definition of the static mutex; see Log',
 'esl/data/file.cpp': 'opens a file of the operating system; not used by the library',
 'esl/data/file.hpp': 'opens a file of the operating system; not used by the library',
 'esl/data/filesystem.hpp': 'alias for a namespace of the standard library',
 'esl/data/format/numpy.hpp': 'declaration without members',
 'esl/data/format/xml.hpp': 'declaration without members',
 'esl/data/null_streambuf.hpp': 'discards characters; the log that uses it is in Log',
 'esl/data/output_base.cpp': 'constructors that store their arguments; streams are in Output',
 'esl/data/terminal.hpp': 'a stream for the console',
 'esl/economics/accounting/standard.cpp': 'constructor: stores the currency, and the rate 1/1 for it',
 'esl/economics/commodity_money.hpp': 'cannot be compiled: includes `physical_money.hpp`',
 'esl/economics/currency.hpp': 'class without members',
 'esl/economics/fungibility.hpp': 'two constants, which no function reads; the bases fungible and infungible select the kind of inventory, see Inventory',
 'esl/economics/markets/demand_supply_function.hpp': 'abstract function; orders are arbitrary functions in Walras and Tatonnement',
 'esl/economics/markets/execution_message.hpp': 'a field, not used by the library',
 'esl/economics/markets/indication.hpp': 'an enumeration; the number is archived in Messages',
 'esl/economics/markets/python_module_markets.hpp': 'a class that is not used',
 'esl/economics/physical_money.hpp': 'cannot be compiled: includes `esl/economics/tangible.hpp`, which does not exist',
 'esl/economics/tangibility.hpp': 'two classes without functions',
 'esl/exception.hpp': 'stores the message',
 'esl/geography/country.cpp': 'a class with a private constructor that nothing can use',
 'esl/geography/country.hpp': 'a class with a private constructor that nothing can use',
 'esl/geography/location.hpp': 'class without members',
 'esl/interaction/header.cpp': 'two functions that are only used in code that is commented out',
 'esl/invalid_parameters.hpp': 'stores the message',
 'esl/mathematics/variable.hpp': 'alias for the type of the Adept library, and the conversion to a number',
 'esl/mathematics/zero_truncated_poisson_distribution.hpp': 'all members are private, so that no program can use it',
 'esl/simulation/python_module_simulation.hpp': 'functions without effect',
 'esl/simulation/world.cpp': 'the root entity with the empty identity; histories in Identity start from any root',
 'esl/simulation/world.hpp': 'the root entity with the empty identity; histories in Identity start from any root',
 'esl/version.cpp': 'a text of three constants',
 'esl/version.hpp': 'a text of three constants',
}
HEAD = open(os.path.join(root, 'tools', 'design_head.md')).read()
TAIL = open(os.path.join(root, 'tools', 'design_tail.md')).read()

def modules():
    """theorem -> module of Props, and its doc comment"""
    where, doc = {}, {}
    for f in sorted(glob.glob(os.path.join(lean, 'Verif/Props/*.lean'))):
        ns, s = [], open(f).read()
        for m in re.finditer(r'^(?:namespace (\S+)|end (\S+)|((?:/-- (?:(?!-/).)*?-/\s*)?)(?:@\[[^\]]*\] )?theorem (C\d+_\S+))', s, flags=re.M | re.S):
            if m.group(1): ns.append(m.group(1))
            elif m.group(2):
                if ns and ns[-1] == m.group(2): ns.pop()
            else:
                n = '.'.join(ns + [m.group(4)])
                where[n] = os.path.basename(f)[:-5]
                doc[n] = re.sub(r'\s+', ' ', m.group(3).replace('/--', '').replace('-/', '')).strip()
    return where, doc

def axioms(names):
    cache = os.path.join(root, 'tools', 'axioms.json')
    if '--axioms' in sys.argv:
        src = 'import Verif\n' + ''.join(f'#print axioms {n}\n' for n in names)
        open('/tmp/axioms_query.lean', 'w').write(src)
        out = subprocess.run(['lake', 'env', 'lean', '/tmp/axioms_query.lean'], cwd=lean, capture_output=True, text=True).stdout
        res = {}
        for m in re.finditer(r"'([^']+)' (?:depends on axioms: \[([^\]]*)\]|does not depend on any axioms)", out):
            res[m.group(1)] = sorted(a.strip() for a in (m.group(2) or '').split(',') if a.strip())
        json.dump(res, open(cache, 'w'), indent=0, sort_keys=True)
    return json.load(open(cache))

def coverage():
    files = sorted(os.path.relpath(p, '/repo') for e in ('hpp', 'cpp') for p in glob.glob(f'/repo/esl/**/*.{e}', recursive=True))
    cites = collections.defaultdict(set)
    for p in glob.glob(os.path.join(lean, 'Verif/Model/*.lean')):
        m = os.path.basename(p)[:-5]
        s = re.sub(r'([\w/]+)\.\{hpp,cpp\}', r'\1.hpp \1.cpp', open(p).read())
        for t in set(re.findall(r'(?<![\w/])([\w/]+\.(?:hpp|cpp))', s)):
            c = [f for f in files if f == t or f.endswith('/' + t)]
            if len(c) > 1: c = [f for f in c if ('impact_function' in f) == (m == 'Impact')]
            for f in c: cites[f].add(m)
    def code(f):
        s = open('/repo/' + f, errors='replace').read()
        s = re.sub(r'/\*.*?\*/', '', s, flags=re.S)
        s = re.sub(r'//[^\n]*', '', s)
        s = re.sub(r'^\s*#.*(\\\n.*)*$', '', s, flags=re.M)
        s = re.sub(r'BOOST_CLASS_(EXPORT|TRACKING)\w*\s*\([^;]*?\)\s*;?', '', s)
        s = re.sub(r'using namespace [\w:]+;', '', s)
        for _ in range(4): s = re.sub(r'namespace [\w: ]*\{\s*\}\s*;?', '', s)
        return s.strip()
    return files, cites, code

where, doc = modules()
ax = axioms([n for c in manifest.values() for n in c['theorems']])
out = [HEAD]
out.append('## 3. Properties: what is modelled, how it is proved, what holds\n')
out.append('The exact theorem names are in `MANIFEST.json`. "Method" says how the theorems are proved; "result" says what is proved and what the code violates.\n')
for p in props:
    c = manifest[p['id']]
    mods = sorted({where[t] for t in c['theorems']})
    out.append(f"**{p['id']} {p['title']}** ({c['status']}). Theorems: {', '.join('`Props/%s`' % m for m in mods)} ({len(c['theorems'])}). Method: {'; '.join(METHOD[m] for m in mods)}. Result: {c['note']}\n")
out.append('## 4. Disagreements between the code and the properties\n')
out.append('Each line is a theorem that shows the code violating a property in section 3, with its comment in the source.\n')
for p in props:
    for t in manifest[p['id']]['theorems']:
        if 'counterexample' in t: out.append(f"* `{t}`: {doc.get(t) or p['title']}")
out.append('\n## 5. Trusted base\n')
out.append(TAIL)
sets = collections.defaultdict(list)
for n, a in ax.items(): sets[tuple(a)].append(n)
out.append('\n### Axioms that the property theorems depend on, as reported by `#print axioms`\n')
for a, ns in sorted(sets.items(), key=lambda x: (len(x[0]), x[0])):
    out.append(f"* {', '.join('`%s`' % x for x in a) or 'none'} ({len(ns)} theorems): " + ', '.join(f'`{n}`' for n in sorted(ns)))
files, cites, code = coverage()
out.append('\n## 6. Which files are modelled\n')
out.append('| file | model modules that cite it |\n|---|---|')
for f in files:
    if f in cites: out.append(f"| `{f}` | {', '.join(sorted(cites[f]))} |")
out.append('\nNot modelled, with code:\n\n| file | reason |\n|---|---|')
missing = []
for f in files:
    if f not in cites and code(f):
        if f not in REASON: missing.append(f)
        out.append(f"| `{f}` | {REASON.get(f, '')} |")
empty = [f for f in files if f not in cites and not code(f)]
out.append('\nWithout code (includes, exports for serialization or comments only): ' + ', '.join(f'`{f}`' for f in empty) + '.\n')
open(os.path.join(root, 'DESIGN.md'), 'w').write('\n'.join(out))
print('DESIGN.md:', sum(len(x) for x in out), 'characters;', 'no reason given for', missing)
lost = [t for c in manifest.values() for t in c['theorems'] if t not in ax]
if lost: print('no axioms known for', lost)
