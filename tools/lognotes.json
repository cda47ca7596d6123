{
 "od11": "equivalent program: the branch is only reached if the brand file vanishes between two reads, which the model has as one read",
 "os13": "the claim named first was an over-broad label: it stays true of the edited program; C45 and C77 state the option",
 "os14": "the claim named first was an over-broad label: it stays true of the edited program; C77 states the core installers",
 "os16": "the claim named first was an over-broad label: it stays true of the edited program; C45 states that an override is not detected away",
 "hc11": "not judged: the edited model or a helper proof did not elaborate, so the harness could not tell which theorems fail",
 "hc18": "not judged: the edited model or a helper proof did not elaborate, so the harness could not tell which theorems fail",
 "hf28": "not judged: the edited model or a helper proof did not elaborate, so the harness could not tell which theorems fail",
 "hf29": "not judged: the edited model or a helper proof did not elaborate, so the harness could not tell which theorems fail",
 "od03": "not judged: the edited model or a helper proof did not elaborate, so the harness could not tell which theorems fail; redone as ox03",
 "av32": "not judged: the edited model or a helper proof did not elaborate, so the harness could not tell which theorems fail",
 "te14": "not judged: the edited model or a helper proof did not elaborate, so the harness could not tell which theorems fail",
 "te15": "not judged: the edited model or a helper proof did not elaborate, so the harness could not tell which theorems fail",
 "te16": "not judged: the edited model or a helper proof did not elaborate, so the harness could not tell which theorems fail",
 "od05": "redone as ox05",
 "os09": "the claim named first was an over-broad label: it stays true of the edited program; C47, C77 and C42 state it",
 "in16": "the claim named first was an over-broad label: it stays true of the edited program; C39, C62 and C102 state it",
 "in26": "the claim named first was an over-broad label: it stays true of the edited program; C77 states the default",
 "in36": "redone as in41",
 "se19": "the claim named first was an over-broad label: it stays true of the edited program; C77 states it",
 "se20": "the claim named first was an over-broad label: it stays true of the edited program; C42 states it",
 "pr22": "the claim named first was an over-broad label: it stays true of the edited program; C107 and C116 state it",
 "so10": "the edited model did not elaborate; redone as so34",
 "so34": "the claim named first was an over-broad label: it stays true of the edited program; C24, C64 and C70 state it",
 "so11": "redone as so31, so32, so33",
 "so12": "redone as so31, so32, so33",
 "so13": "redone as so31, so32, so33",
 "so16": "the claim named first was an over-broad label: it stays true of the edited program; C64 and C70 state it",
 "so19": "equivalent as far as can be observed: the keys are verified to be texts before this view is used",
 "so21": "the claim named first was an over-broad label: it stays true of the edited program; C58 states it",
 "so22": "the claim named first was an over-broad label: it stays true of the edited program; C26 states it",
 "te01": "redone as te21",
 "te02": "redone as te22",
 "te08": "redone as tx08",
 "te10": "redone as tx10",
 "te09": "the claim named first was an over-broad label: it stays true of the edited program; C63 states it",
 "te11": "the claim named first was an over-broad label: it stays true of the edited program; C63 states it",
 "te12": "the claim named first was an over-broad label: it stays true of the edited program; C63 states it",
 "te13": "the claim named first was an over-broad label: it stays true of the edited program; C63 states it",
 "te18": "the harness did not finish stubbing; three proofs were rejected directly",
 "co05": "redone as cx05",
 "co07": "the claim named first was an over-broad label: it stays true of the edited program; C80, C60 and C107 state it",
 "co11": "the claim named first was an over-broad label: it stays true of the edited program; C80, C60 and C118 state it",
 "co12": "the claim named first was an over-broad label: it stays true of the edited program; C80, C60 and C118 state it",
 "co14": "the claim named first was an over-broad label: it stays true of the edited program; C118 states it",
 "co15": "the claim named first was an over-broad label: it stays true of the edited program; C118 states it",
 "co21": "redone as cx21",
 "is06": "the claim named first was an over-broad label: it stays true of the edited program; C39, C32, C33, C34 state it",
 "is07": "the claim named first was an over-broad label: it stays true of the edited program; C39, C32, C33 state it",
 "is11": "the claim named first was an over-broad label: it stays true of the edited program; C118 caught it",
 "is12": "redone as ix12",
 "is19": "the claim named first was an over-broad label: it stays true of the edited program; C118, C39, C34 and C40 caught it",
 "cf05": "equivalent program: the branch is not reached",
 "cf06": "equivalent program: the branch is not reached",
 "cf10": "redone as cx10",
 "cf11": "redone as cx11",
 "cf58": "the harness gave up stubbing after its rounds; C96_xylem_command_line was among the proofs rejected directly",
 "cf62": "redone as cg62",
 "cf63": "redone as cg63",
 "cf64": "redone as cg64",
 "db01": "the claim named first was an over-broad label: it stays true of the edited program; C70 states it",
 "db03": "the claim named first was an over-broad label: it stays true of the edited program; C65, C70 and C05 state it",
 "db06": "the claim named first was an over-broad label: it stays true of the edited program; C64, C70 and C24 state it",
 "db07": "equivalent program: the structure check guarantees the items",
 "db08": "the claim named first was an over-broad label: it stays true of the edited program; C23 and C25 state it",
 "db15": "the claim named first was an over-broad label: it stays true of the edited program; C23 proofs are rejected; the order of sources is stated by C58 and C117 elsewhere",
 "db19": "the claim named first was an over-broad label: it stays true of the edited program; C23 states it",
 "db20": "redone as dx20",
 "db23": "the claim named first was an over-broad label: it stays true of the edited program; C65, C70 and C03 state it",
 "db27": "not observable: values are verified before the typed view is taken",
 "rs02": "the claim named first was an over-broad label: it stays true of the edited program; C68 states it",
 "rs03": "redone as rx03",
 "rs07": "redone as rx07",
 "rs08": "the claim named first was an over-broad label: it stays true of the edited program; C29 and C30 state it",
 "su09": "the claim named first was an over-broad label: it stays true of the edited program; C42 and C77 state it",
 "su10": "the claim named first was an over-broad label: it stays true of the edited program; C77 states it",
 "pg01": "redone as px01",
 "pg02": "redone as px02",
 "pg04": "redone as px04",
 "pg05": "the claim named first was an over-broad label: it stays true of the edited program; C117 and C105 caught it; redone as px05",
 "pg06": "redone as px06",
 "po28": "the claim named first was an over-broad label: it stays true of the edited program; C122, C123 and C125 state it",
 "po32": "the claim named first was an over-broad label: it stays true of the edited program; C122 states it",
 "he06": "redone as hx06",
 "he11": "the harness gave up stubbing after its rounds; C127_config_entry or C127_type_and_default were among the proofs rejected directly",
 "he12": "the harness gave up stubbing after its rounds; C127_config_entry or C127_type_and_default were among the proofs rejected directly",
 "he13": "the harness gave up stubbing after its rounds; C127_config_entry or C127_type_and_default were among the proofs rejected directly",
 "he14": "the harness gave up stubbing after its rounds; C127_config_entry or C127_type_and_default were among the proofs rejected directly",
 "ca07": "the claim named first was an over-broad label: it stays true of the edited program; C128 states it",
 "cb11": "the claim named first was an over-broad label: it stays true of the edited program; C135 states it",
 "dc01": "the claim named first was an over-broad label: it stays true of the edited program; C70 states it",
 "dc08": "the claim named first was an over-broad label: it stays true of the edited program; C23 proofs are rejected",
 "dc10": "the claim named first was an over-broad label: it stays true of the edited program; C79 states it",
 "st32": "the harness gave up stubbing after its rounds; redone as sz32",
 "cm34": "the claim named first was an over-broad label: it stays true of the edited program; C96 states it",
 "pg31": "the claim named first was an over-broad label: it stays true of the edited program; C128 states it",
 "pg32": "equivalent program: None and the empty text both mean the default directory, and the effective config never has None (C100_directories)",
 "pg33": "the claim named first was an over-broad label: it stays true of the edited program; C122 and C123 state it",
 "in51": "redone as iz51",
 "in52": "the claim named first was an over-broad label: it stays true of the edited program; C80 states it",
 "av40": "redone as av41",
 "aq03": "redone as aq14",
 "ze03": "does not make the claim false (the escapes are still reversible); an example of Props/Encoding fails",
 "hm20b": "does not make the claims false: only lookups in values that are no dicts differ, and verified rules have none",
 "zk13": "does not make the claim false: update does not use its argument dry_run (update.py:61-86), so nothing observable changes",
 "fz43": "tried with Props/Plugins only; repeated as fz53 with the module of C61_update_check, which fails",
 "zk12": "does not make C128 false (the contexts are used alike); repeated as zk32 for C143, whose theorem fails",
 "pn05": "no verdict: the build stopped in a proof the tool could not stub"
}