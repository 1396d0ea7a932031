#!/usr/bin/env python3
"""Translate the unit tests in /repo/test into lean/Verif/Tests/Suites.lean.

Only tests that use a single filter object are translated; the others (copy and move of
objects, comparisons of two filters, the engine-driven reservoir tests) are listed as skipped."""
import os, re, sys

REPO = sys.argv[1] if len(sys.argv) > 1 else "/repo"
OUT = os.path.join(os.path.dirname(__file__), "..", "lean", "Verif", "Tests", "Suites.lean")
FILES = ["cumulative/moment", "cumulative/comoment", "cumulative/correlation", "cumulative/regression",
         "cumulative/trend", "window/moment", "window/comoment", "window/regression", "decay/moment",
         "interim/moment", "interim/comoment", "interim/regression", "interim/psquare_quantile",
         "quantile/psquare", "impulse/finite", "impulse/infinite"]
RATIOS = {"minimum_ratio": (0, 1), "maximum_ratio": (1, 1), "median_ratio": (1, 2),
          "lower_quartile_ratio": (1, 4), "upper_quartile_ratio": (3, 4), "upper_decile_ratio": (9, 10)}


class Skip(Exception):
    pass


def ratio(text):
    text = text.strip().replace("quantile::", "")
    if text in RATIOS:
        return RATIOS[text]
    m = re.fullmatch(r"std::ratio<\s*(\d+)\s*,\s*(\d+)\s*>", text)
    if m:
        return int(m.group(1)), int(m.group(2))
    raise Skip("ratio " + text)


def split(text):
    """Split at commas outside brackets."""
    parts, depth, cur = [], 0, ""
    for c in text:
        if c in "([{<":
            depth += 1
        if c in ")]}>":
            depth -= 1
        if c == "," and depth == 0:
            parts.append(cur.strip())
            cur = ""
        else:
            cur += c
    if cur.strip():
        parts.append(cur.strip())
    return parts


def number(text, env):
    text = re.sub(r"(\d)(U|f|F)\b", r"\1", text.strip())
    if not re.fullmatch(r"[\w\s.+\-*/()]*", text):
        raise Skip("expression " + text)
    try:
        return float(eval(text, {"__builtins__": {}}, dict(env)))
    except Exception:
        raise Skip("expression " + text)


def lit(x):
    if x != x or x in (float("inf"), float("-inf")):
        raise Skip("not a number")
    s = repr(abs(x))
    if "." not in s and "e" in s:
        s = s.replace("e", ".0e")
    return "-" + s if x < 0 else s


def flist(xs):
    return "[" + ", ".join(lit(x) for x in xs) + "]"


def braces(text, env):
    return [number(t, env) for t in split(text.strip()[1:-1])]


def filter_term(ty, args, env):
    m = re.fullmatch(r"(\w+)::(\w+)<(.*)>", ty) or re.fullmatch(r"()(cumulative_linear)<(.*)>", ty)
    if not m:
        raise Skip("type " + ty)
    ns, name, targs = m.group(1), m.group(2), split(m.group(3))
    if name == "cumulative_linear":
        ns, name = "cumulative", "regression"
    value = targs[0]
    names = {"moment": "Moment", "moment_variance": "Variance", "moment_skewness": "Skewness",
             "moment_kurtosis": "Kurtosis", "covariance": "Covariance", "correlation": "Correlation",
             "regression": "Regression", "trend": "Trend"}
    suffix = {"double": "", "float": "Float", "int": "Int"}[value]
    if ns in ("cumulative", "window", "interim") and name in names:
        t = ns + names[name] + suffix
        return t if ns == "cumulative" else "(%s %s)" % (t, targs[1])
    if ns == "decay":
        t = "decay" + names[name] + suffix
        return "(%s %s)" % (t, " ".join(lit(number(a, env)) for a in args))
    if ns == "impulse" and name == "finite":
        return "(impulseFinite %s)" % flist(braces(args[0], env))
    if ns == "impulse" and name == "infinite":
        if not args[0].startswith("{"):
            raise Skip("coefficients " + args[0])
        extra = " " + lit(number(args[2], env)) if len(args) > 2 else ""
        return "(impulseInfinite %s %s%s)" % (flist(braces(args[0], env)), flist(braces(args[1], env)), extra)
    quart = [(1, 4), (1, 2), (3, 4)]
    if ns == "quantile":
        qs = {"psquare_median": [(1, 2)], "psquare_quartile": quart}.get(name) or [ratio(t) for t in targs[1:]]
        return "(quantilePSquare [%s])" % ", ".join("⟨%d, %d⟩" % q for q in qs)
    if ns == "interim":
        qs = {"psquare_median": [(1, 2)], "psquare_quartile": quart}.get(name) or [ratio(t) for t in targs[2:]]
        return "(interimPSquare %s [%s])" % (targs[1], ", ".join("⟨%d, %d⟩" % q for q in qs))
    raise Skip("type " + ty)


def query(text, env, var):
    """`filter.name<targs>(args)` -> name and argument list."""
    m = re.fullmatch(re.escape(var) + r"\.(\w+)(?:<(.*)>)?\((.*)\)", text.strip())
    if not m:
        raise Skip("query " + text)
    name, targs, args = m.groups()
    if targs:
        if name == "get":
            return name, [float(targs)]
        return name, [float(v) for v in ratio(targs)]
    return name, [number(a, env) for a in split(args)]


def statements(body):
    body = re.sub(r"//.*", "", body)
    out, depth, cur = [], 0, ""
    i = 0
    while i < len(body):
        c = body[i]
        if c in "({[":
            # a brace at statement level opens a scope
            if c == "{" and depth == 0 and cur.strip() == "":
                out.append("{")
                i += 1
                continue
            depth += 1
        if c in ")}]":
            if c == "}" and depth == 0:
                out.append("}")
                i += 1
                continue
            depth -= 1
        if c == ";" and depth == 0:
            out.append(" ".join(cur.split()))
            cur = ""
        else:
            cur += c
        i += 1
    return [s for s in out if s]


def translate(body, genv):
    env, scopes, steps, term, var, params, tol = dict(genv), [], [], None, None, None, {}
    checks = 0
    vectors = {}
    for s in statements(body):
        if s == "{":
            scopes.append(dict(env))
            continue
        if s == "}":
            env = scopes.pop()
            continue
        m = re.fullmatch(r"const auto (\w+) = detail::close_to<\w+>\((.*)\)", s)
        if m:
            tol[m.group(1)] = [number(a, env) for a in split(m.group(2))]
            continue
        if s.startswith("std::cout"):
            continue
        m = re.fullmatch(r"double (\w+)\[\] = (\{.*\})", s)
        if m:
            vectors[m.group(1)] = braces(m.group(2), env)
            continue
        m = re.fullmatch(r"(\w+)\.parameters\(expected\)", s)
        if m:
            steps.append(".setParams [%s]" % ", ".join("(%d, %s)" % (a, lit(b)) for a, b in params))
            continue
        m = re.fullmatch(r"(?:const )?(?:double|float|int|auto) (\w+) = (.*)", s)
        if m and "parameters" not in s and "[" not in s:
            env[m.group(1)] = number(m.group(2), env)
            continue
        if s.startswith("auto parameter_tolerance"):
            continue
        if s == "std::vector<double> history":
            continue
        m = re.fullmatch(r"(?:auto )?params = (\w+)\.parameters\(\)", s)
        if m:
            continue
        m = re.fullmatch(r"(?:decltype\((?:params|quantile\.parameters\(\))\) )?expected = (\{.*\})", s)
        if m:
            params = []
            for t in split(m.group(1)[1:-1]):
                a, b = split(t[1:-1])
                params.append((int(a), number(b, env)))
            continue
        m = re.fullmatch(r"std::vector<double> (\w+) = (\{.*\})", s)
        if m:
            vectors[m.group(1)] = braces(m.group(2), env)
            continue
        m = re.fullmatch(r"std::(copy|move|copy_if|transform)\((\w+)\.begin\(\), \w+\.end\(\), push_inserter\(filter\)(.*)\)", s)
        if m and var:
            xs = vectors[m.group(2)]
            extra = m.group(3).strip(", ")
            if m.group(1) == "copy_if":
                if extra != "less_than<double>(3.0)":
                    raise Skip(s)
                xs = [x for x in xs if x < 3.0]
            if m.group(1) == "transform":
                if extra != "squared<double>()":
                    raise Skip(s)
                xs = [x * x for x in xs]
            steps += [".push [%s]" % lit(x) for x in xs]
            continue
        if s.startswith("TRIAL_TEST_ALL_WITH(params"):
            steps.append(".params [%s] %s" % (", ".join("(%d, %s)" % (a, lit(b)) for a, b in params),
                                              lit(env["tolerance_threshold"])))
            checks += 1
            continue
        m = re.fullmatch(r"TRIAL_TEST\((!?)(\w+)\.(\w+)\(\)\)", s)
        if m:
            if m.group(2) != var:
                raise Skip("second object")
            steps.append(".flag \"%s\" %s" % (m.group(3), "false" if m.group(1) else "true"))
            checks += 1
            continue
        m = re.fullmatch(r"TRIAL_TEST_EQ\((.*)\)", s)
        if m:
            a, b = split(m.group(1))
            name, args = query(a, env, var)
            if b in ("true", "false"):
                steps.append(".flag \"%s\" %s" % (name, b))
            else:
                steps.append(".eq \"%s\" %s (%s)" % (name, flist(args), lit(number(b, env))))
            checks += 1
            continue
        m = re.fullmatch(r"TRIAL_TEST_WITH\((.*)\)", s)
        if m:
            a, b, t = split(m.group(1))
            name, args = query(a, env, var)
            if t not in tol:
                mm = re.fullmatch(r"detail::close_to<\w+>\((.*)\)", t)
                if not mm:
                    raise Skip("tolerance " + t)
                r = [number(a, env) for a in split(mm.group(1))]
            else:
                r = tol[t]
            for v, xs in vectors.items():
                b = re.sub(r"\b%s\[(\d+)\]" % v, lambda m: repr(xs[int(m.group(1))]), b)
            if len(r) == 2:
                steps.append(".closeAbs \"%s\" %s (%s) %s %s" % (name, flist(args), lit(number(b, env)), lit(r[0]), lit(r[1])))
                checks += 1
                continue
            r = r[0]
            if "history" in b:
                e = re.sub(r"history\[(\d+)\]", r"h[\1]!", b)
                for k, v in env.items():
                    e = re.sub(r"\b%s\b" % k, "(%s)" % lit(v), e)
                e = re.sub(r"(?<![\w.\[])(\d+)(?![\w.\]])", r"\1.0", e)
                steps.append(".closeWith \"%s\" (fun h => %s) %s" % (name, e, lit(r)))
            elif b.startswith(var + "."):
                name2, args2 = query(b, env, var)
                steps.append(".same \"%s\" %s \"%s\" %s %s" % (name, flist(args), name2, flist(args2), lit(r)))
            else:
                steps.append(".close \"%s\" %s (%s) %s" % (name, flist(args), lit(number(b, env)), lit(r)))
            checks += 1
            continue
        m = re.fullmatch(r"history\.push_back\((\w+)\.value\(\)\)", s)
        if m:
            steps.append(".record")
            continue
        m = re.fullmatch(r"(\w+)\.push\((.*)\)", s)
        if m and m.group(1) == var:
            steps.append(".push " + flist([number(a, env) for a in split(m.group(2))]))
            continue
        m = re.fullmatch(r"(\w+)\.clear\(\)", s)
        if m and m.group(1) == var:
            steps.append(".clear")
            continue
        m = re.fullmatch(r"([\w:]+<.*>) (\w+)(?:\((.*)\))?", s)
        if m:
            if term is not None:
                # a second object: stop translating here
                break
            var = m.group(2)
            args = [t if t not in vectors else "{" + ",".join(map(repr, vectors[t])) + "}" for t in split(m.group(3) or "")]
            term = filter_term(m.group(1), args, env)
            continue
        raise Skip("statement " + s)
    if term is None:
        raise Skip("no filter")
    return term, steps, checks


def main():
    out = ["import Verif.Tests.Harness", "/-",
           "Generated by tools/tests.py from /repo/test; do not edit.", "-/",
           "namespace Verif.Tests", ""]
    total = nchecks = 0
    skipped = []
    for f in FILES:
        path = os.path.join(REPO, "test", f + "_suite.cpp")
        src = open(path).read()
        genv = {}
        for m in re.finditer(r"^const auto (\w+) = (.*);", src, re.M):
            genv[m.group(1)] = number(m.group(2), {})
        ns = ""
        pos = 0
        for m in re.finditer(r"^namespace (\w+)\n|^void (\w+)\(\)\n\{\n(.*?)^ ?\}", src, re.M | re.S):
            if m.group(1):
                ns = m.group(1)
                continue
            name, body = m.group(2), m.group(3)
            line = src.count("\n", 0, m.start()) + 1
            if name in ("run", "test"):
                continue
            try:
                term, steps, checks = translate(body, genv)
            except Skip as e:
                skipped.append("%s_suite.cpp:%d %s::%s (%s)" % (f, line, ns, name, e))
                continue
            if checks == 0:
                continue
            total += 1
            nchecks += checks
            out.append("-- test/%s_suite.cpp:%d %s::%s" % (f, line, ns, name))
            out.append("#guard failures %s [" % term)
            out.append(",\n".join("  " + s for s in steps) + "] == []")
            out.append("")
    out.append("end Verif.Tests")
    open(OUT, "w").write("\n".join(out) + "\n")
    print("%d tests, %d checks; %d skipped" % (total, nchecks, len(skipped)))
    for s in skipped:
        print("  skipped " + s)


main()
