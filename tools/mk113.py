import json
r={"mods":["Verif.NN.Experiment","Verif.NN.PropsExperiment","Verif.NN.PropsExperimentEx"],"props":[["C113","Preparing a data file for the experiment program",
"For every data file that can be read, run_experiment.py sends each sample with its features (values, or for a column of names the order in which the names first appear) and with a label below the number of classes, such that two samples have the same label exactly if they have the same class, and the program that receives them builds a training and a test set with one row per sample and a single one in the column of its class.",
"all data files, numbers of rows and columns, class names and numbers, and random sequences of the shuffle",
"all files of any size and any numbering of the classes.",
["run_experiment.py: process, geto, max_label, replace, isnum","test/model_test.cpp: load"]]],
"notes":{"C113":["partial","C113_named, C113_numbered_partial, C113_features, C113_sent: holds when some class is not a number, or the classes are 0..k-1 or 1..k. Missing because false: other numbers. C113_cases lists the only other cases for natural numbers: C113_merged (class 0 occurs and the largest class equals the number of classes: two classes are silently merged; C113_distinct_refuted) and C113_gap (larger gaps: the program stops with an exception). A last line without line end makes its class a different one (C113_last_line_refuted). Negative and fractional class numbers are not treated; the text of the numbers between script and program is not modelled."]},
"design":"(C113) loops over columns and rows by invariants; names are numbered by the count of different names before the first occurrence; composed with C104."}
json.dump(r,open('/tmp/gen/r113.json','w'))
