import json
r={"mods":["Verif.NN.TestData","Verif.NN.PropsTestData"],"props":[["C104","Loading, shuffling, splitting and scoring data in the test programs",
"For every sequence of random numbers, shuffledata permutes the samples, features and labels alike. load splits them into a training set of the first four fifths (rounded down) and a test set of the rest, so that each sample that was read is at exactly one place in one of them, next to the one-hot coding of its label; with fewer than two samples, or a label that is not a class, it throws. accuracy is the share of rows whose predicted class is the labelled one, and evaluate returns, without changing the network, the share of samples whose label is the first of the largest outputs. Shuffling before a full-batch training step does not change the weights. The trainer named in the input is used: false, every name gives the plain trainer and the parameters of the named one are left unread.",
"all random sequences, data sets and labels of any size, networks, names of trainers and parameters",
"a test sees one shuffle of one data set; the claims range over every sequence of random numbers and every data set.",
["test/model_test.cpp: shuffledata, load, accuracy, evaluate, setuptrainer","test/test5.cpp: shuffledata, accuracy","src/trainer/trainer.cpp: operator=","src/neuralnet.cpp: predict"]]],
"notes":{"C104":["partial","C104_shuffle, C104_split, C104_too_few, C104_load, C104_bad_label, C104_accuracy, C104_evaluate, C104_shuffle_training. The claim about the trainer's name is false (the comparison of the names is inverted): C104_trainer says what happens for every name and C104_trainer_name_refuted refutes the full statement. Exact real arithmetic; rand() is an arbitrary sequence."]},
"design":"(C104) the body of the shuffling loop is a reordering by a transposition; invariant: the state is the input reordered by a permutation of the row numbers; the split is two sub-views of it; accuracy by induction over the rows; evaluation from C32 and C55; training from C59."}
json.dump(r,open('/tmp/gen/r104.json','w'))
