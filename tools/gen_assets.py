"""Generate Lean declarations of the attributes declared in /repo/src/assets/schemas (read as text).

Usage: gen_assets.py   (writes lean/Verif/Model/Assets/*.lean)
"""
import ast, os, re

SRC = "/repo/src/assets/schemas/"
OUT = "/verif/lean/Verif/Model/Assets/"
TYPES = {"Unknown": "unknown", "Boolean": "boolean", "Decimal": "decimal", "Integer": "integer", "String": "string",
         "Binary": "binary", "ExternalReference": "extRef", "URIReference": "uriRef", "SCIMReference": "scimRef",
         "DateTime": "dateTime", "Complex": "complex"}
MUT = {"READ_WRITE": "readWrite", "READ_ONLY": "readOnly", "WRITE_ONLY": "writeOnly", "IMMUTABLE": "immutable"}
RET = {"DEFAULT": "default", "ALWAYS": "always", "NEVER": "never", "REQUEST": "request"}
UNI = {"NONE": "none", "SERVER": "server", "GLOBAL": "global"}
ISS = {"SERVER": "server", "CLIENT": "client", "NOT_SPECIFIED": "notSpecified"}
PROCS = {}


def camel(n):
    n = n.strip("_")
    parts = [p for p in re.split(r"_+", n) if p]
    s = parts[0] + "".join(p[0].upper() + p[1:] for p in parts[1:])
    return s + "A"


def lit(s):
    return '"%s".toList' % s


def b(v):
    return "true" if v else "false"


def fields(call, complex_):
    f = []
    subs = None
    extra = {}
    for kw in call.keywords:
        v = kw.value
        k = kw.arg
        if k == "name":
            f.insert(0, "rep := { attr := %s }" % lit(v.value))
        elif k == "type_":
            f.append("type := .%s" % TYPES[v.attr])
        elif k == "required":
            if v.value: f.append("required := true")
        elif k == "case_exact":
            if v.value: f.append("caseExact := true")
        elif k == "multi_valued":
            if v.value: f.append("multi := true")
        elif k == "mutability":
            if MUT[v.attr] != "readWrite": f.append("mutability := .%s" % MUT[v.attr])
        elif k == "returned":
            if RET[v.attr] != "default": f.append("returned := .%s" % RET[v.attr])
        elif k == "uniqueness":
            if UNI[v.attr] != "none": f.append("uniqueness := .%s" % UNI[v.attr])
        elif k == "issuer":
            f.append("issuer := .%s" % ISS[v.attr])
        elif k == "canonical_values":
            f.append("canonical := some [%s]" % ", ".join(".str %s" % lit(e.value) for e in v.elts))
        elif k == "validate_canonical_values":
            if v.value: f.append("validateCanon := true")
        elif k == "description":
            f.append("description := %s" % lit(v.value))
        elif k == "reference_types":
            f.append("refTypes := [%s]" % ", ".join(lit(e.value) for e in v.elts))
        elif k == "sub_attributes":
            subs = [e.id for e in v.elts]
        elif k in ("parsers", "dumpers", "complex_parsers", "complex_dumpers"):
            extra[k] = v
        else:
            raise Exception(k)
    if complex_:
        f.insert(1, "type := .complex")
    return f, subs, extra


def gen(fname, mod, ns, doc, aliases=None, skip=(), tail=""):
    text = open(SRC + fname).read()
    tree = ast.parse(text)
    out = ["import Verif.Model.Schemas", "", "/-!", "# %s" % doc, "",
           "Generated by tools/gen_assets.py from src/assets/schemas/%s." % fname, "-/", "", "namespace Scim." + ns,
           "variable [PyEnv]", ""]
    for st in tree.body:
        if isinstance(st, ast.Assign) and isinstance(st.targets[0], ast.Name):
            name = st.targets[0].id
            if name in skip: continue
            src = "src/assets/schemas/%s:%d-%d" % (fname, st.lineno, st.end_lineno)
            if isinstance(st.value, ast.Name):
                out += ["/-- `%s` (%s) -/" % (name, src), "def %s : Attr := %s" % (camel(name), camel(st.value.id)), ""]
            elif isinstance(st.value, ast.Call) and isinstance(st.value.func, ast.Name) and st.value.func.id in ("Attribute", "ComplexAttribute"):
                cx = st.value.func.id == "ComplexAttribute"
                f, subs, extra = fields(st.value, cx)
                assert not extra, (name, extra)
                out.append("/-- `%s` (%s) -/" % (name, src))
                if cx:
                    out.append("def %s : Attr :=\n  mkComplex { %s }\n    [%s]" % (camel(name), ", ".join(f), ", ".join(camel(s) for s in subs)))
                else:
                    out.append("def %s : Attr := mkAttr { %s }" % (camel(name), ", ".join(f)))
                out.append("")
    out.append(tail)
    out.append("end Scim." + ns)
    os.makedirs(OUT, exist_ok=True)
    open(OUT + mod + ".lean", "w").write("\n".join(out) + "\n")


gen("user.py", "User", "UserA", "The User schema (src/assets/schemas/user.py)", tail='''/-- The URN of `User` (src/assets/schemas/user.py:910). -/
def urn : Str := "urn:ietf:params:scim:schemas:core:2.0:User".toList

/-- The URN of the enterprise extension (src/assets/schemas/user.py:939). -/
def enterpriseUrn : Str := "urn:ietf:params:scim:schemas:extension:enterprise:2.0:User".toList

/-- The attributes of `User` (src/assets/schemas/user.py:911-933). -/
def attrs : List Attr :=
  [userNameA, nameA, displayNameA, nickNameA, profileUrlA, titleA, userTypeA, preferredLanguageA, localeA, timezoneA,
   activeA, passwordA, emailsA, phoneNumbersA, imsA, photosA, addressesA, groupsA, entitlementsA, rolesA,
   x509CertificatesA]

/-- `User` before the extension is added (src/assets/schemas/user.py:907-936). -/
def core : Schema := mkResource urn attrs "User".toList

/-- The enterprise extension (src/assets/schemas/user.py:938-949). -/
def enterprise : Extension :=
  { urn := enterpriseUrn, name := "Enterprise User".toList,
    attrs := Attributes.ofList [employeeNumberA, costCenterA, divisionA, departmentA, organizationA, managerA] }

/-- `User()` (src/assets/schemas/user.py:907-950). -/
def schema : PyM Schema := core.withExtension enterprise
''')
gen("group.py", "Group", "GroupA", "The Group schema (src/assets/schemas/group.py)", tail='''/-- The URN of `Group` (src/assets/schemas/group.py:40). -/
def urn : Str := "urn:ietf:params:scim:schemas:core:2.0:Group".toList

/-- `Group()` (src/assets/schemas/group.py:37-44). -/
def schema : Schema := mkResource urn [displayNameA, membersA] "Group".toList
''')
gen("resource_type.py", "ResourceType", "ResourceTypeA", "The ResourceType schema (src/assets/schemas/resource_type.py)", tail='''/-- The URN of `ResourceType` (src/assets/schemas/resource_type.py:73). -/
def urn : Str := "urn:ietf:params:scim:schemas:core:2.0:ResourceType".toList

/-- `ResourceType()` (src/assets/schemas/resource_type.py:70-77). -/
def schema : Schema :=
  mkResource urn [nameA, descriptionA, endpointA, schemaA, schemaExtensionsA] "ResourceType".toList (idA := idA)
''')
gen("service_provider_config.py", "ServiceProviderConfig", "ConfigA", "The ServiceProviderConfig schema (src/assets/schemas/service_provider_config.py)", tail='''/-- `id_` without `required` (src/assets/schemas/service_provider_config.py:7-8). -/
def idA : Attr :=
  mkAttr { rep := { attr := "id".toList }, type := .string, required := false, issuer := .server,
           caseExact := true, mutability := .readOnly, returned := .always, uniqueness := .server,
           parsers := [bulkIdValidator], dumpers := [bulkIdValidator] }

/-- The URN of `ServiceProviderConfig` (src/assets/schemas/service_provider_config.py:142). -/
def urn : Str := "urn:ietf:params:scim:schemas:core:2.0:ServiceProviderConfig".toList

/-- `ServiceProviderConfig()` (src/assets/schemas/service_provider_config.py:139-157). -/
def schema : Schema :=
  mkResource urn [documentationUriA, patchA, bulkA, filterA, changePasswordA, sortA, etagA, authenticationSchemesA]
    "ServiceProviderConfig".toList (idA := idA)
''', skip=("id_",))
